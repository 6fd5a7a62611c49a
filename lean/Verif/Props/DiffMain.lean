import Verif.Model.DiffMain
import Verif.Props.DiffOpts
import Verif.Props.DiffFileOwn
import Verif.Props.DumpMain

/-!
C85: gdxdiff as a whole. What the exit code says, which file holds the differences afterwards, and that no other file is changed.
-/

namespace Gdx.Props
open Gdx Gdx.Diff Gdx.Spec
open Gdx.DiffOpts (str Conf Takes Bad)
open Gdx.DiffMain

/-! ### what is said -/

/-- the temporary file: the first of the names `tmpdifffile1.gdx`, `tmpdifffile2.gdx`, … that is not in use -/
def IsTmp (d : Str → Option (List UInt8)) (tmp : Str) : Prop :=
  ∃ n : Nat, 1 ≤ n ∧ n ≤ 2147483647 ∧ tmp = str "tmpdifffile" ++ intToStr n ++ str ".gdx" ∧ d tmp = none ∧
    ∀ m : Nat, 1 ≤ m → m < n → d (str "tmpdifffile" ++ intToStr m ++ str ".gdx") ≠ none

/-- the sentence for an entry of the table -/
def Says (s : Status) (t : Str) : Prop :=
  match s with
  | .same => t = str "Symbols are identical"
  | .notf1 => t = str "Symbol not found in file 1"
  | .notf2 => t = str "Symbol not found in file 2"
  | .dim => t = str "Dimensions are different"
  | .typ => t = str "Types are different"
  | .key => t = str "Keys are different"
  | .data => t = str "Data are different"
  | .dim10 => t = str "Dim >= maxdim"
  | .dim10diff => t = str "Dim >= maxdim & different"
  | .domain => t = str "Domains are different"

/-- the summary: one sentence if nothing is different, otherwise one line for each entry of the table; the names end in the same column -/
def IsSummary (t : List (Str × Status)) (s : Str) : Prop :=
  (t = [] ∧ s = str "No differences found" ++ [10]) ∨
  (t ≠ [] ∧ ∃ (col : Nat) (rows : List Str), s = str "Summary of differences:" ++ [10] ++ (rows.map (· ++ [10])).flatten ∧
    List.Forall₂ (fun (p : Str × Status) row => ∃ blanks text, row = List.replicate blanks 32 ++ p.1 ++ str "   " ++ text ∧ Says p.2 text ∧
      ((∀ q ∈ t, q.1.length ≤ 255) → blanks + p.1.length = col)) t rows)

/-- the files are those of `d`, except that `n` has the content `c` -/
def Only (d d' : Str → Option (List UInt8)) (n : Str) (c : Option (List UInt8)) : Prop := d' n = c ∧ ∀ m, m ≠ n → d' m = d m

/-- what becomes of the difference file `file` that was written to `tmp`: exit code and files. `k`: the exit code if all is well -/
inductive Placed (w : World) (c : Conf) (tmp : Str) (file : List UInt8) (k : Nat) : Nat → (Str → Option (List UInt8)) → Prop
  | done {d} (h : c.diff ≠ tmp) (h1 : w.disk c.diff = none ∨ w.canDelete c.diff = true) (h2 : w.canRename tmp c.diff = true)
      (hd : Only w.disk d c.diff (some file)) : Placed w c tmp file k k d
  | kept {d} (h : c.diff ≠ tmp) (h1 : w.disk c.diff ≠ none) (h2 : w.canDelete c.diff = false)
      (hd : Only w.disk d tmp (some file)) : Placed w c tmp file k 7 d
  | stuck {d} (h : c.diff ≠ tmp) (h1 : w.disk c.diff = none ∨ w.canDelete c.diff = true) (h2 : w.canRename tmp c.diff = false)
      (h3 : d c.diff = none) (h4 : d tmp = some file) (h5 : ∀ m, m ≠ c.diff → m ≠ tmp → d m = w.disk m) : Placed w c tmp file k 7 d
  | lost {d} (h : c.diff = tmp) (h1 : w.canDelete c.diff = true) (hd : d = w.disk) : Placed w c tmp file k 7 d
  | same {d} (h : c.diff = tmp) (h1 : w.canDelete c.diff = false) (hd : Only w.disk d tmp (some file)) : Placed w c tmp file k 7 d

/-- the content that is found under the name `n` while the temporary file is written -/
def OnDisk (w : World) (tmp n : Str) (f : List UInt8) : Prop := if n = tmp then f = w.unfinished else w.disk n = some f

/-- the first lines of the standard output -/
def Head (w : World) (c : Conf) (s : Str) : Prop := ∃ ids, s = w.audit ++ [10] ++ str "File1 : " ++ c.file1 ++ [10] ++ str "File2 : " ++ c.file2 ++ [10] ++ ids

/-- how a comparison ends: exit code, files and standard output. `tmp`: the temporary file -/
inductive Ends (e : Env) (z : Cz) (fuel fuel' : Nat) (w : World) (c : Conf) (tmp : Str) : Nat → (Str → Option (List UInt8)) → Str → Prop
  | noTmp {std} (h : w.create tmp ≠ 0) (hs : Head w c std) : Ends e z fuel fuel' w c tmp 6 w.disk std
  | noFile {n std : Str} (h : w.create tmp = 0) (h1 : n = c.file1 ∨ n = c.file2 ∧ ∃ f1, OnDisk w tmp c.file1 f1 ∧ Spec.Accepted z.rd f1 true)
      (h2 : w.disk n = none) (h3 : n ≠ tmp) (hs : Head w c std) : Ends e z fuel fuel' w c tmp 3 w.disk std
  | refused {n std : Str} {f : List UInt8} {err : Int} (h : w.create tmp = 0)
      (h1 : n = c.file1 ∨ n = c.file2 ∧ ∃ f1, OnDisk w tmp c.file1 f1 ∧ Spec.Accepted z.rd f1 true)
      (h2 : OnDisk w tmp n f) (h3 : Refused z.rd f true err) (hs : Head w c std) : Ends e z fuel fuel' w c tmp 4 w.disk std
  | compared {f1 f2 : List UInt8} {x : Objs} {t : List (Str × Status)} {file : List UInt8} {k d} {first s note rest std : Str} (h : w.create tmp = 0)
      (h1 : OnDisk w tmp c.file1 f1) (h2 : OnDisk w tmp c.file2 f2)
      (a1 : Spec.Accepted z.rd f1 true) (a2 : Spec.Accepted z.rd f2 true) (h3 : statusTable c.opt e z fuel f1 f2 = .ok (some (x, t)))
      (h4 : finishDiff z fuel' x.gd c.file1 c.file2 = .ok file) (h5 : Placed w c tmp file (if t = [] then 0 else 1) k d)
      (h6 : Head w c first) (h7 : IsSummary t s) (h8 : std = first ++ s ++ note ++ str "Output: " ++ (if k = 7 then tmp else c.diff) ++ [10] ++ rest) :
      Ends e z fuel fuel' w c tmp k d std

/-! ### proofs -/

theorem upd_same (d : Str → Option (List UInt8)) (n : Str) (c : Option (List UInt8)) : upd d n c n = c := by simp [upd]

theorem upd_other {d : Str → Option (List UInt8)} {n m : Str} (c : Option (List UInt8)) (h : m ≠ n) : upd d n c m = d m := by simp [upd, h]

theorem upd_back {d : Str → Option (List UInt8)} {n : Str} (c : Option (List UInt8)) (h : d n = none) : upd (upd d n c) n none = d := by
  funext m
  by_cases hm : m = n
  · rw [hm, upd_same, h]
  · rw [upd_other _ hm, upd_other _ hm]

theorem upd_twice (d : Str → Option (List UInt8)) (n : Str) (c c' : Option (List UInt8)) : upd (upd d n c) n c' = upd d n c' := by
  funext m
  by_cases hm : m = n
  · rw [hm, upd_same, upd_same]
  · rw [upd_other _ hm, upd_other _ hm, upd_other _ hm]

theorem freeTmp_spec {d : Str → Option (List UInt8)} : ∀ (k n : Nat) {tmp : Str}, freeTmp d k n = .ok tmp →
    ∃ m, n ≤ m ∧ m < n + k ∧ tmp = tmpName m ∧ d tmp = none ∧ ∀ i, n ≤ i → i < m → d (tmpName i) ≠ none := by
  intro k
  induction k with
  | zero => intro n tmp h; cases h
  | succ k ih =>
    intro n tmp h
    unfold freeTmp at h
    split at h
    · rename_i hs
      obtain ⟨m, m1, m2, m3, m4, m5⟩ := ih (n + 1) h
      refine ⟨m, by omega, by omega, m3, m4, fun i h1 h2 => ?_⟩
      by_cases hi : i = n
      · rw [hi]; intro h0; rw [h0] at hs; cases hs
      · exact m5 i (by omega) h2
    · rename_i hs
      injection h with h
      subst h
      refine ⟨n, Nat.le_refl _, by omega, rfl, ?_, fun i h1 h2 => absurd h2 (by omega)⟩
      cases hd : d (tmpName n) with
      | none => rfl
      | some f => rw [hd] at hs; exact absurd rfl hs

theorem freeTmp_isTmp {d : Str → Option (List UInt8)} {tmp : Str} (h : freeTmp d 2147483647 1 = .ok tmp) : IsTmp d tmp := by
  obtain ⟨m, m1, m2, m3, m4, m5⟩ := freeTmp_spec _ _ h
  exact ⟨m, m1, by omega, m3, m4, m5⟩

theorem freeTmp_find {d : Str → Option (List UInt8)} {m : Nat} (h : d (tmpName m) = none) : ∀ (k n : Nat), n ≤ m → m < n + k → ∃ tmp, freeTmp d k n = .ok tmp := by
  intro k
  induction k with
  | zero => intro n h1 h2; omega
  | succ k ih =>
    intro n h1 h2
    unfold freeTmp
    by_cases hs : (d (tmpName n)).isSome = true
    · rw [if_pos hs]
      have : n ≠ m := by rintro rfl; rw [h] at hs; cases hs
      exact ih (n + 1) (by omega) (by omega)
    · rw [if_neg hs]; exact ⟨_, rfl⟩

/-- opening the file of an input -/
theorem openFile_spec {z : Cz} {d : Str → Option (List UInt8)} {n : Str} {us : List Str} {x : Except Nat (List UInt8 × List Str)} (h : openFile z d n us = .ok x) :
    (x = .error 3 ∧ d n = none) ∨ ∃ f, d n = some f ∧ ((x = .error 4 ∧ ∃ err, Refused z.rd f true err) ∨
      ∃ g us', x = .ok (f, us') ∧ Spec.Accepted z.rd f true ∧ openGDX z f us = .ok (some (g, us'))) := by
  unfold openFile at h
  cases hd : d n with
  | none =>
    rw [hd] at h
    injection h with h
    exact .inl ⟨h.symm, rfl⟩
  | some f =>
    rw [hd] at h
    right
    refine ⟨f, rfl, ?_⟩
    obtain ⟨y, h1, h⟩ := Res.bind_eq_ok.mp h
    have ho := h1
    unfold openGDX at h1
    obtain ⟨⟨g, b, err⟩, h2, h1⟩ := Res.bind_eq_ok.mp h1
    dsimp only at h1
    have := C41_opening z Gx.new f 0 rfl
    rw [show openReadXX z Gx.new (.content f) 0 = openRead z Gx.new (.content f) from rfl, h2] at this
    have this : if b = true then Spec.Accepted z.rd f (decide ((0 : Int) % 2 = 0)) ∧ err = 0 ∧ g.mode = .rInit ∧ g.stat = .read
        else Refused z.rd f (decide ((0 : Int) % 2 = 0)) err ∧ g.lastErr = err ∧ g.opened = false ∧ g.mode = .notOpen ∧ g.stat = Gx.new.stat := this
    cases b with
    | false =>
      obtain ⟨t1, _⟩ := this
      rw [if_pos (refused_ne t1), Res.pure_eq] at h1
      injection h1 with h1
      subst h1
      injection h with h
      exact .inl ⟨h.symm, err, t1⟩
    | true =>
      obtain ⟨t1, t2, _⟩ := this
      rw [if_neg (by simp [t2])] at h1
      obtain ⟨⟨b', n', hi⟩, _, h1⟩ := Res.bind_eq_ok.mp h1
      dsimp only at h1
      obtain ⟨⟨g', us'⟩, _, h1⟩ := Res.bind_eq_ok.mp h1
      rw [Res.pure_eq] at h1
      injection h1 with h1
      subst h1
      injection h with h
      exact .inr ⟨_, us', h.symm, t1, ho⟩

theorem openWrite_err {e : Env} {k : Int} {x : Gx} {b : Bool} {err : Int} (h : openWriteEx e Gx.new false k producer 0 = .ok (x, (b, err))) : err = k := by
  unfold openWriteEx at h
  rw [if_neg (by decide), if_neg (by decide)] at h
  by_cases hk : k ≠ 0
  · rw [if_pos hk] at h
    injection h with h
    injection h with _ h
    injection h with _ h
    exact h.symm
  · rw [if_neg hk] at h
    obtain ⟨y, _, h⟩ := Res.bind_eq_ok.mp h
    injection h with h
    injection h with _ h
    injection h with _ h
    rw [← h]; omega

theorem deliver_spec {w : World} {c : Conf} {tmp : Str} {file : List UInt8} (ht : w.disk tmp = none) (k : Nat) {ok : Bool} {d : Str → Option (List UInt8)}
    (h : DiffMain.deliver w c tmp (upd w.disk tmp (some file)) = (ok, d)) : Placed w c tmp file k (if ok = false then 7 else k) d := by
  unfold DiffMain.deliver at h
  by_cases he : c.diff = tmp
  · rw [he, upd_same] at h
    simp only [Option.isNone_some, Bool.false_eq_true, if_false] at h
    cases hc : w.canDelete tmp with
    | true =>
      rw [hc] at h
      simp only [if_true, Bool.true_eq_false, if_false, upd_back _ ht, ht] at h
      injection h with h1 h2
      subst h1 h2
      exact .lost he (by rw [he]; exact hc) rfl
    | false =>
      rw [hc] at h
      simp only [Bool.false_eq_true, if_false, if_true] at h
      injection h with h1 h2
      subst h1 h2
      exact .same he (by rw [he]; exact hc) ⟨upd_same _ _ _, fun m hm => upd_other _ hm⟩
  · rw [upd_other _ he] at h
    have he' : tmp ≠ c.diff := fun x => he x.symm
    by_cases hb : w.disk c.diff ≠ none ∧ w.canDelete c.diff = false
    · obtain ⟨hb1, hb2⟩ := hb
      have : (w.disk c.diff).isNone = false := by cases hx : w.disk c.diff with | none => exact absurd hx hb1 | some _ => rfl
      rw [this, hb2] at h
      simp only [Bool.false_eq_true, if_false, if_true] at h
      injection h with h1 h2
      subst h1 h2
      exact .kept he hb1 hb2 ⟨upd_same _ _ _, fun m hm => upd_other _ hm⟩
    · have hb' : w.disk c.diff = none ∨ w.canDelete c.diff = true := by
        by_cases hx : w.disk c.diff = none
        · exact .inl hx
        · right
          cases hy : w.canDelete c.diff with
          | true => rfl
          | false => exact absurd ⟨hx, hy⟩ hb
      have hst : ∃ d1 : Str → Option (List UInt8), d1 tmp = some file ∧ d1 c.diff = none ∧ (∀ m, m ≠ c.diff → m ≠ tmp → d1 m = w.disk m) ∧
          (if (w.disk c.diff).isNone = true then (true, upd w.disk tmp (some file)) else if w.canDelete c.diff = true then
            (true, upd (upd w.disk tmp (some file)) c.diff none) else (false, upd w.disk tmp (some file))) = (true, d1) := by
        by_cases hx : w.disk c.diff = none
        · refine ⟨upd w.disk tmp (some file), upd_same _ _ _, by rw [upd_other _ he, hx], fun m _ hm => upd_other _ hm, ?_⟩
          rw [hx]; rfl
        · have hy : w.canDelete c.diff = true := hb'.resolve_left hx
          refine ⟨upd (upd w.disk tmp (some file)) c.diff none, by rw [upd_other _ he', upd_same], upd_same _ _ _,
            fun m hm hm' => by rw [upd_other _ hm, upd_other _ hm'], ?_⟩
          have : (w.disk c.diff).isNone = false := by cases hz : w.disk c.diff with | none => exact absurd hz hx | some _ => rfl
          rw [this, hy]; rfl
      obtain ⟨d1, e1, e2, e3, e4⟩ := hst
      rw [e4] at h
      simp only [Bool.true_eq_false, if_false, e1] at h
      cases hr : w.canRename tmp c.diff with
      | true =>
        rw [hr] at h
        simp only [if_true, upd_same, Option.isSome_some] at h
        injection h with h1 h2
        subst h1 h2
        refine .done he hb' hr ⟨upd_same _ _ _, fun m hm => ?_⟩
        rw [upd_other _ hm]
        by_cases hm' : m = tmp
        · rw [hm', upd_same, ht]
        · rw [upd_other _ hm', e3 m hm hm']
      | false =>
        rw [hr] at h
        simp only [Bool.false_eq_true, if_false, e2, Option.isSome_none] at h
        injection h with h1 h2
        subst h1 h2
        exact .stuck he hb' hr e2 e1 e3

theorem statusText_says (s : Status) : Says s (statusText s) := by cases s <;> rfl

theorem longest_from (t : List (Str × Status)) : ∀ n, n ≤ t.foldl (fun n p => if p.1.length > n then p.1.length else n) n ∧
    (∀ p ∈ t, p.1.length ≤ t.foldl (fun n p => if p.1.length > n then p.1.length else n) n) ∧
    (∀ m, n ≤ m → (∀ p ∈ t, p.1.length ≤ m) → t.foldl (fun n p => if p.1.length > n then p.1.length else n) n ≤ m) := by
  induction t with
  | nil => intro n; exact ⟨Nat.le_refl _, fun p hp => absurd hp (by simp), fun m h _ => h⟩
  | cons q t ih =>
    intro n
    simp only [List.foldl_cons]
    have hq : n ≤ (if q.1.length > n then q.1.length else n) ∧ q.1.length ≤ (if q.1.length > n then q.1.length else n) := by split <;> omega
    obtain ⟨i1, i2, i3⟩ := ih (if q.1.length > n then q.1.length else n)
    refine ⟨by omega, fun p hp => ?_, fun m h1 h2 => i3 m ?_ fun p hp => h2 p (by simp [hp])⟩
    · rcases List.mem_cons.mp hp with rfl | hp
      · omega
      · exact i2 p hp
    · have := h2 q (by simp)
      split <;> omega

theorem summary_is (t : List (Str × Status)) : IsSummary t (summary t) := by
  unfold summary
  by_cases ht : t = []
  · rw [if_pos ht]; exact .inl ⟨ht, rfl⟩
  · rw [if_neg ht]
    refine .inr ⟨ht, longest t, t.map (fun p => padLeft p.1 (longest t) ++ str "   " ++ statusText p.2), ?_, ?_⟩
    · rw [List.map_map]; rfl
    · have hl := (longest_from t 1).2.1
      have hm := (longest_from t 1).2.2 255 (by decide)
      have : ∀ l : List (Str × Status), (∀ p ∈ l, p ∈ t) → List.Forall₂ (fun (p : Str × Status) row => ∃ blanks text, row = List.replicate blanks 32 ++ p.1 ++ str "   " ++ text ∧ Says p.2 text ∧
          ((∀ q ∈ t, q.1.length ≤ 255) → blanks + p.1.length = longest t)) l (l.map (fun p => padLeft p.1 (longest t) ++ str "   " ++ statusText p.2)) := by
        intro l
        induction l with
        | nil => intro _; exact .nil
        | cons p l ih =>
          intro hp
          refine .cons ⟨min 255 (longest t) - p.1.length, statusText p.2, rfl, statusText_says _, fun hq => ?_⟩ (ih fun q hq => hp q (by simp [hq]))
          have h1 := hl p (hp p (by simp))
          have h2 := hm hq
          unfold longest
          omega
      exact this t fun _ h => h

/-- the two openings of a comparison are those of `statusTable` -/
theorem statusTable_some {o : Opt} {e : Env} {z : Cz} {fuel : Nat} {f1 f2 : List UInt8} {g1 g2 gd : Gx} {us us' : List Str} {b : Bool}
    (h0 : openWriteEx e Gx.new false 0 producer 0 = .ok (gd, (b, 0))) (h1 : openGDX z f1 (startUels o) = .ok (some (g1, us)))
    (h2 : openGDX z f2 us = .ok (some (g2, us'))) {y : Option (Objs × List (Str × Status))} (h : statusTable o e z fuel f1 f2 = .ok y) : ∃ x t, y = some (x, t) := by
  unfold statusTable prepare at h
  rw [h0] at h
  simp only [Res.bind_ok, ne_eq, not_true_eq_false, if_false] at h
  rw [h1] at h
  simp only [Res.bind_ok] at h
  rw [h2] at h
  simp only [Res.bind_ok, Res.pure_eq] at h
  obtain ⟨⟨x, t⟩, _, h⟩ := Res.bind_eq_ok.mp h
  injection h with h
  exact ⟨x, _, h.symm⟩

theorem heading_head (w : World) (c : Conf) : Head w c (heading w c) := by
  unfold heading
  rw [List.append_assoc]
  exact ⟨_, rfl⟩

/-- a comparison, for every content of the files -/
theorem run_spec {e : Env} {z : Cz} {fuel fuel' : Nat} {w : World} {c : Conf} {r : Result} (h : DiffMain.run e z fuel fuel' w c = .ok r) :
    ∃ tmp, IsTmp w.disk tmp ∧ Ends e z fuel fuel' w c tmp r.code r.disk r.std := by
  unfold DiffMain.run at h
  obtain ⟨tmp, h1, h⟩ := Res.bind_eq_ok.mp h
  have hT := freeTmp_isTmp h1
  refine ⟨tmp, hT, ?_⟩
  have hh := heading_head w c
  obtain ⟨_, _, _, _, ht, _⟩ := hT
  obtain ⟨⟨gd, b, err⟩, h2, h⟩ := Res.bind_eq_ok.mp h
  have he := openWrite_err h2
  dsimp only at h
  by_cases hc : err ≠ 0
  · rw [if_pos hc, Res.pure_eq] at h
    injection h with h
    subst h
    exact .noTmp (by rw [← he]; exact hc) hh
  rw [if_neg hc] at h
  have hc0 : err = 0 := by omega
  have hcr : w.create tmp = 0 := by omega
  rw [hcr, hc0] at h2
  have look : ∀ {n : Str} {f : List UInt8}, upd w.disk tmp (some w.unfinished) n = some f → OnDisk w tmp n f := by
    intro n f hx
    unfold OnDisk
    by_cases hn : n = tmp
    · rw [if_pos hn]; rw [hn, upd_same] at hx; injection hx with hx; exact hx.symm
    · rw [if_neg hn]; rw [upd_other _ hn] at hx; exact hx
  have miss : ∀ {n : Str}, upd w.disk tmp (some w.unfinished) n = none → w.disk n = none ∧ n ≠ tmp := by
    intro n hx
    by_cases hn : n = tmp
    · rw [hn, upd_same] at hx; cases hx
    · rw [upd_other _ hn] at hx; exact ⟨hx, hn⟩
  obtain ⟨x1, h3, h⟩ := Res.bind_eq_ok.mp h
  rcases openFile_spec h3 with ⟨rfl, n1⟩ | ⟨f1, n1, ⟨rfl, err1, n2⟩ | ⟨g1, us, rfl, n2, n3⟩⟩
  · dsimp only at h
    rw [Res.pure_eq] at h
    injection h with h
    subst h
    dsimp only
    rw [upd_back _ ht]
    exact .noFile hcr (.inl rfl) (miss n1).1 (miss n1).2 hh
  · dsimp only at h
    rw [Res.pure_eq] at h
    injection h with h
    subst h
    dsimp only
    rw [upd_back _ ht]
    exact .refused hcr (.inl rfl) (look n1) n2 hh
  dsimp only at h
  obtain ⟨x2, h4, h⟩ := Res.bind_eq_ok.mp h
  rcases openFile_spec h4 with ⟨rfl, m1⟩ | ⟨f2, m1, ⟨rfl, err2, m2⟩ | ⟨g2, us', rfl, m2, m3⟩⟩
  · dsimp only at h
    rw [Res.pure_eq] at h
    injection h with h
    subst h
    dsimp only
    rw [upd_back _ ht]
    exact .noFile hcr (.inr ⟨rfl, f1, look n1, n2⟩) (miss m1).1 (miss m1).2 hh
  · dsimp only at h
    rw [Res.pure_eq] at h
    injection h with h
    subst h
    dsimp only
    rw [upd_back _ ht]
    exact .refused hcr (.inr ⟨rfl, f1, look n1, n2⟩) (look m1) m2 hh
  dsimp only at h
  obtain ⟨y, h5, h⟩ := Res.bind_eq_ok.mp h
  obtain ⟨x, t, rfl⟩ := statusTable_some h2 n3 m3 h5
  dsimp only at h
  obtain ⟨file, h6, h⟩ := Res.bind_eq_ok.mp h
  rw [upd_twice] at h
  generalize hd : DiffMain.deliver w c tmp (upd w.disk tmp (some file)) = q at h
  obtain ⟨ok, d⟩ := q
  dsimp only at h
  rw [Res.pure_eq] at h
  injection h with h
  have hD := deliver_spec ht (if t = [] then 0 else 1) hd
  subst h
  refine .compared hcr (look n1) (look m1) n2 m2 h5 h6 hD hh (summary_is t)
    (note := if ok then [] else str "Could not rename " ++ tmp ++ str " to " ++ c.diff ++ [10]) (rest :=
      let n := if ok then c.diff else tmp
      (if c.ide then str "GDXDiff file written: " ++ n ++ str "[FIL:\"" ++ n ++ str "\",0,0]" ++ [10] else []) ++ str "GDXDiff finished" ++ [10]) ?_
  have hk : (if (if ok = false then 7 else if t = [] then 0 else 1) = 7 then tmp else c.diff) = if ok then c.diff else tmp := by
    cases ok
    · rfl
    · by_cases ht0 : t = [] <;> simp [ht0]
  rw [hk]
  unfold ending
  simp only [List.append_assoc]

/-- A run of gdxdiff that has a defined end, for every command line of C74 and for all files: exit code, files and standard output are those of `Ends`. -/
theorem C85_exit_partial {num : CmdLine.Text → Option Dbl} {fs : CmdLine.Text → Option (List CmdLine.Text)} {e : Env} {z : Cz} {fuel fuel' : Nat} {w : World} {args a : List CmdLine.Text}
    {q l : List (Int × CmdLine.Text)} (ha : ∀ x, args.head? = some x → ¬ SameNoCase x (str "AUDIT")) (he : CmdLine.Expand fs args a)
    (hr : CmdLine.Means DiffOpts.documented a q) (hi : CmdLine.Input q l) (h : ∀ p ∈ l, p.2.length ≤ 251) {r : Result} (hx : gdxdiff num fs e z fuel fuel' w args = .ok r) :
    (Bad num l ∧ r.code = 2 ∧ r.disk = w.disk ∧ r.std = w.usage) ∨
    (¬ Bad num l ∧ ∃ c tmp, Takes num (fun n => (w.disk n).isSome) l c ∧ IsTmp w.disk tmp ∧ Ends e z fuel fuel' w c tmp r.code r.disk r.std) := by
  unfold gdxdiff at hx
  rcases DiffOpts.C74_main_partial num (fun n => (w.disk n).isSome) ha he hr hi h with ⟨h1, h2⟩ | ⟨h1, c, h2, h3⟩
  · rw [h2] at hx
    injection hx with hx
    subst hx
    exact .inl ⟨h1, rfl, rfl, rfl⟩
  · rw [h2] at hx
    obtain ⟨tmp, t1, t2⟩ := run_spec (hx : DiffMain.run e z fuel fuel' w c = .ok r)
    exact .inr ⟨h1, c, tmp, h3, t1, t2⟩

/-- What the exit code says, for every run with a defined end: 0 and 1 only if both files were compared and the difference file has its name; the
    summary is empty exactly with 0. No other file is changed, except with 7; with 2, 3, 4 and 6 no file at all. -/
theorem C85_codes {e : Env} {z : Cz} {fuel fuel' : Nat} {w : World} {c : Conf} {tmp : Str} {k : Nat} {d : Str → Option (List UInt8)} {std : Str}
    (h : Ends e z fuel fuel' w c tmp k d std) :
    k ∈ [0, 1, 3, 4, 6, 7] ∧ (k ∈ [3, 4, 6] → d = w.disk) ∧
    (k = 0 ∨ k = 1 → c.diff ≠ tmp ∧ ∃ f1 f2 x t file, OnDisk w tmp c.file1 f1 ∧ OnDisk w tmp c.file2 f2 ∧ statusTable c.opt e z fuel f1 f2 = .ok (some (x, t)) ∧
      finishDiff z fuel' x.gd c.file1 c.file2 = .ok file ∧ (k = 0 ↔ t = []) ∧ Only w.disk d c.diff (some file)) ∧
    (k = 7 → ∀ m, m ≠ c.diff → m ≠ tmp → d m = w.disk m) := by
  cases h with
  | noTmp h hs => exact ⟨by simp, fun _ => rfl, by simp, by simp⟩
  | noFile h h1 h2 h3 hs => exact ⟨by simp, fun _ => rfl, by simp, by simp⟩
  | refused h h1 h2 h3 hs => exact ⟨by simp, fun _ => rfl, by simp, by simp⟩
  | @compared f1 f2 x t file _ _ first s note rest _ h h1 h2 a1 a2 h3 h4 h5 h6 h7 h8 =>
    cases h5 with
    | done g1 g2 g3 g4 =>
      refine ⟨by split <;> simp, fun hk => ?_, fun _ => ⟨g1, f1, f2, x, t, file, h1, h2, h3, h4, by split <;> simp_all, g4⟩, fun hk => ?_⟩
      · revert hk; split <;> simp
      · revert hk; split <;> simp
    | kept g1 g2 g3 g4 => exact ⟨by simp, by simp, by simp, fun _ m _ hm => g4.2 m hm⟩
    | stuck g1 g2 g3 g4 g5 g6 => exact ⟨by simp, by simp, by simp, fun _ => g6⟩
    | lost g1 g2 g3 => exact ⟨by simp, by simp, by simp, fun _ m _ _ => by rw [g3]⟩
    | same g1 g2 g3 => exact ⟨by simp, by simp, by simp, fun _ m _ hm => g3.2 m hm⟩

/-- a comparison up to the difference file -/
theorem run_eq {e : Env} {z : Cz} {fuel fuel' : Nat} {w : World} {c : Conf} {tmp : Str} {f1 f2 : List UInt8} {x : Objs} {t : List (Str × Status)}
    (hT : freeTmp w.disk 2147483647 1 = .ok tmp) (hc : w.create tmp = 0) (h1 : w.disk c.file1 = some f1) (h2 : w.disk c.file2 = some f2)
    (h : statusTable c.opt e z fuel f1 f2 = .ok (some (x, t))) :
    DiffMain.run e z fuel fuel' w c = (do
      let file ← finishDiff z fuel' x.gd c.file1 c.file2
      let (ok, d) := DiffMain.deliver w c tmp (upd w.disk tmp (some file))
      pure { code := if ok = false then 7 else if t = [] then 0 else 1, std := heading w c ++ summary t ++ ending c tmp ok, disk := d }) := by
  obtain ⟨_, _, _, _, ht, _⟩ := freeTmp_isTmp hT
  have n1 : c.file1 ≠ tmp := by intro he; rw [he, ht] at h1; cases h1
  have n2 : c.file2 ≠ tmp := by intro he; rw [he, ht] at h2; cases h2
  unfold DiffMain.run
  rw [hT, Res.bind_ok, hc]
  have hs := h
  unfold statusTable at hs
  obtain ⟨y, p1, hs⟩ := Res.bind_eq_ok.mp hs
  cases y with
  | none => cases hs
  | some y =>
  unfold prepare at p1
  obtain ⟨⟨gd, b, err⟩, p2, p1⟩ := Res.bind_eq_ok.mp p1
  rw [p2, Res.bind_ok]
  dsimp only at p1 ⊢
  by_cases herr : err ≠ 0
  · rw [if_pos herr] at p1; cases p1
  rw [if_neg herr] at p1 ⊢
  obtain ⟨y1, q1, p1⟩ := Res.bind_eq_ok.mp p1
  cases y1 with
  | none => cases p1
  | some y1 =>
  obtain ⟨g1, us1⟩ := y1
  dsimp only at p1
  obtain ⟨y2, q2, p1⟩ := Res.bind_eq_ok.mp p1
  cases y2 with
  | none => cases p1
  | some y2 =>
  obtain ⟨g2, us2⟩ := y2
  unfold openFile
  rw [upd_other _ n1, h1]
  dsimp only
  rw [q1]
  simp only [Res.bind_ok, Res.pure_eq]
  rw [upd_other _ n2, h2]
  dsimp only
  rw [q2]
  simp only [Res.bind_ok]
  rw [h]
  simp only [Res.bind_ok, upd_twice]

/-- Two files that the library has written, and a difference file that can be written: gdxdiff ends with exit code 0 if the contents are the same up to the
    options (C57), and with 1 otherwise. The summary is that of the table of C72, the difference file has the content of C72, and no other file is changed. -/
theorem C85_own_partial {num : Str → Option Dbl} {fs : Str → Option (List Str)} {args : List Str} {w : World} {c : Conf} {e1 e2 e : Env} {z : Cz} (hz : z.Good)
    (hx : DiffOpts.main num (fun n => (w.disk n).isSome) fs args = .ok (.run c)) (hm : c.opt.matrix = false) (hdo : c.opt.diffOnly = true → c.opt.fldOnly = none)
    (hfo : ∀ f, c.opt.fldOnly = some f → f < 5) {g1 g2 : Gx} {syms1 syms2 : List Sym} {R1 R2 : Nat → List RawEntry} {f1 f2 : List UInt8}
    (h1 : OwnFile e1 z g1 syms1 R1 f1) (h2 : OwnFile e2 z g2 syms2 R2 f2) (d1 : w.disk c.file1 = some f1) (d2 : w.disk c.file2 = some f2)
    (hw : ∃ gd b3, openWriteEx e Gx.new false 0 producer 0 = .ok (gd, (b3, 0))) (hsz : (systemInfo g1).2 + (systemInfo g2).2 ≤ 999999991)
    (hin1 : ZFree c.file1) (hin2 : ZFree c.file2) (hn : ∃ n : Nat, 1 ≤ n ∧ n ≤ 2147483647 ∧ w.disk (str "tmpdifffile" ++ intToStr n ++ str ".gdx") = none)
    (ht : ∀ tmp, IsTmp w.disk tmp → w.create tmp = 0 ∧ c.diff ≠ tmp ∧ w.canRename tmp c.diff = true) (hd : w.disk c.diff = none ∨ w.canDelete c.diff = true) :
    ∃ a b P Q, openRead z Gx.new (.content f1) = .ok (a, (true, 0)) ∧ openRead z Gx.new (.content f2) = .ok (b, (true, 0)) ∧
      Content z a (contentOf syms1 R1) P ∧ Content z b (contentOf syms2 R2) Q ∧
      ((∀ n, (a.symAt n).isSome = true → Regular a n (P n)) → (∀ n, (b.symAt n).isSome = true → Regular b n (Q n)) → RoomFor c.opt a → RoomFor c.opt b →
        ∀ fuel, totalRecs a (contentOf syms1 R1) + totalRecs b (contentOf syms2 R2) < fuel →
        ((room c.opt (totalRecs a (contentOf syms1 R1) + totalRecs b (contentOf syms2 R2)) : Nat) : Int) ≤ intMax → ∀ fuel', syms1.length < fuel' →
        ∃ x t, statusTable c.opt e z fuel f1 f2 = .ok (some (x, t)) ∧ TableIs c.opt a b P Q t ∧ ∃ G file r, finishTo z fuel' x.gd c.file1 c.file2 = .ok G ∧
          finishDiff z fuel' x.gd c.file1 c.file2 = .ok file ∧ gdxdiff num fs e z fuel fuel' w args = .ok r ∧
            (r.code = 0 ↔ SameFiles c.opt a b P Q) ∧ (r.code = 1 ↔ ¬ SameFiles c.opt a b P Q) ∧
            (∃ first s rest, Head w c first ∧ IsSummary t s ∧ r.std = first ++ s ++ str "Output: " ++ c.diff ++ [10] ++ rest) ∧
            Only w.disk r.disk c.diff (some file) ∧
            (FileFits G → (file.length : Int) ≤ 9223372036854775807 → ∀ g0, Reader g0 →
              ∃ g, openRead z g0 (.content file) = .ok (g, (true, 0)) ∧ DiffFile c.opt z a b P Q c.file1 c.file2 g)) := by
  obtain ⟨a, b, P, Q, o1, o2, o3, o4, o5⟩ := C72_own_partial (o := c.opt) hz hm hdo hfo h1 h2 hw hsz hin1 hin2
  refine ⟨a, b, P, Q, o1, o2, o3, o4, fun r1 r2 r3 r4 fuel hf hmax fuel' hf' => ?_⟩
  obtain ⟨x, t, t1, t2, G, file, t3, hfile, t4⟩ := o5 r1 r2 r3 r4 fuel hf hmax fuel' hf'
  refine ⟨x, t, t1, t2, G, file, ?_⟩
  obtain ⟨n, n1, n2, n3⟩ := hn
  obtain ⟨tmp, hT⟩ := freeTmp_find (m := n) n3 2147483647 1 n1 (by omega)
  have hI := freeTmp_isTmp hT
  obtain ⟨c1, c2, c3⟩ := ht tmp hI
  have hrun := run_eq (fuel' := fuel') hT c1 d1 d2 t1
  rw [hfile, Res.bind_ok] at hrun
  obtain ⟨_, _, _, _, htmp, _⟩ := hI
  generalize hdl : DiffMain.deliver w c tmp (upd w.disk tmp (some file)) = q at hrun
  obtain ⟨ok, d⟩ := q
  dsimp only at hrun
  have hsame : t = [] ↔ SameFiles c.opt a b P Q := by
    obtain ⟨a', P', s1, _, _, s4⟩ := h1.content hz
    obtain ⟨b', Q', s1', _, _, s4'⟩ := h2.content hz
    rw [o1] at s1
    rw [o2] at s1'
    cases s1
    cases s1'
    refine C57_files hz o1 o2 o3 o4 ?_ t1
    rw [size_strs, size_strs, s4, s4', ← size_strs, ← size_strs]
    exact hsz
  have key : ok = true ∧ Only w.disk d c.diff (some file) := by
    have hD := deliver_spec htmp 0 hdl
    generalize hk : (if ok = false then 7 else 0) = k at hD
    cases hD with
    | done g1 g2 g3 g4 =>
      refine ⟨?_, g4⟩
      cases ok
      · cases hk
      · rfl
    | kept g1 g2 g3 g4 =>
      rcases hd with hd | hd
      · exact absurd hd g2
      · rw [hd] at g3; cases g3
    | stuck g1 g2 g3 => rw [c3] at g3; cases g3
    | lost g1 => exact absurd g1 c2
    | same g1 => exact absurd g1 c2
  obtain ⟨rfl, hO⟩ := key
  refine ⟨{ code := if t = [] then 0 else 1, std := heading w c ++ summary t ++ ending c tmp true, disk := d }, t3, hfile, ?_, ?_, ?_,
    ⟨heading w c, summary t, (if c.ide then str "GDXDiff file written: " ++ c.diff ++ str "[FIL:\"" ++ c.diff ++ str "\",0,0]" ++ [10] else []) ++
      str "GDXDiff finished" ++ [10], heading_head w c, summary_is t, ?_⟩, hO, t4⟩
  · unfold gdxdiff
    rw [hx]
    exact hrun
  · rw [← hsame]; by_cases h0 : t = [] <;> simp [h0]
  · rw [← hsame]; by_cases h0 : t = [] <;> simp [h0]
  · unfold ending
    simp only [if_true, List.append_assoc, List.nil_append]

/-! ### examples -/

/-- the files `a.gdx` and `b.gdx`; nothing is refused, and the name `x.gdx` is in another file system -/
def diffWorld (fa fb : List UInt8) : World where
  disk := fun n => if n = str "a.gdx" then some fa else if n = str "b.gdx" then some fb else if n = str "x.gdx" then some (List.replicate 40 0) else none
  create := fun _ => 0
  canDelete := fun _ => true
  canRename := fun _ n => n ≠ str "x.gdx"
  unfinished := []
  audit := str "GDXDIFF"
  usage := str "Usage"

/-- gdxdiff for two files that are written with `a` and `b`: exit code, standard output, and the contents of the files `ns` -/
def diffRun (a b : List Call) (args ns : List Str) : Res (Nat × Str × List (Option (List UInt8))) := do
  let fa ← fileOf a
  let fb ← fileOf b
  let r ← gdxdiff (fun _ => none) (fun _ => none) ⟨[]⟩ Cz.id 100 100 (diffWorld fa fb) args
  pure (r.code, r.std, ns.map r.disk)

theorem diffWorld_ex (fa fb : List UInt8) : (fun n => ((diffWorld fa fb).disk n).isSome) = fun n => decide (n = str "a.gdx" ∨ n = str "b.gdx" ∨ n = str "x.gdx") := by
  funext n
  unfold diffWorld
  dsimp only
  by_cases h1 : n = str "a.gdx"
  · rw [if_pos h1, decide_eq_true (.inl h1)]; rfl
  rw [if_neg h1]
  by_cases h2 : n = str "b.gdx"
  · rw [if_pos h2, decide_eq_true (.inr (.inl h2))]; rfl
  rw [if_neg h2]
  by_cases h3 : n = str "x.gdx"
  · rw [if_pos h3, decide_eq_true (.inr (.inr h3))]; rfl
  · rw [if_neg h3, decide_eq_false (by rintro (h | h | h) <;> contradiction)]; rfl

/-- the conditions of `C85_own_partial` can be met: `gdxdiff a b d` for two files that differ in one value -/
example : ∃ (g1 g2 : Gx) (syms1 syms2 : List Sym) (R1 R2 : Nat → List RawEntry) (f1 f2 : List UInt8), OwnFile ⟨[]⟩ Cz.id g1 syms1 R1 f1 ∧ OwnFile ⟨[]⟩ Cz.id g2 syms2 R2 f2 ∧
    (R1 0).map RawEntry.vals ≠ (R2 0).map RawEntry.vals ∧ ∃ (c : Conf) (a b : Gx) (P Q : Int → List Record), c.diff = str "d.gdx" ∧
    Content Cz.id a (contentOf syms1 R1) P ∧ Content Cz.id b (contentOf syms2 R2) Q ∧ ∀ fuel, totalRecs a (contentOf syms1 R1) + totalRecs b (contentOf syms2 R2) < fuel →
      ((room c.opt (totalRecs a (contentOf syms1 R1) + totalRecs b (contentOf syms2 R2)) : Nat) : Int) ≤ intMax → ∃ x t, statusTable c.opt ⟨[]⟩ Cz.id fuel f1 f2 = .ok (some (x, t)) ∧
      ∃ file r, finishDiff Cz.id 2 x.gd c.file1 c.file2 = .ok file ∧ gdxdiff (fun _ => none) (fun _ => none) ⟨[]⟩ Cz.id fuel 2 (diffWorld f1 f2) [str "a", str "b", str "d"] = .ok r ∧
        (r.code = 0 ↔ SameFiles c.opt a b P Q) ∧ r.disk (str "d.gdx") = some file := by
  have hz : Cz.id.Good := fun x t => ⟨t, rfl⟩
  obtain ⟨g1, syms1, R1, f1, a1, ⟨a2, a3, a4⟩, _, _, _, s1, rfl, a5, _⟩ := own_exists true
  obtain ⟨g2, syms2, R2, f2, b1, ⟨b2, b3, b4⟩, _, _, _, s2, rfl, b5, _⟩ := own_exists false
  refine ⟨g1, g2, [s1], [s2], R1, R2, f1, f2, a1, b1, ?_, ?_⟩
  · have e1 := congrArg (List.map Prod.snd) a4
    have e2 := congrArg (List.map Prod.snd) b4
    rw [List.map_map] at e1 e2
    rw [show RawEntry.vals = Prod.snd ∘ fun x : RawEntry => (x.key, x.vals) from rfl, e1, e2]
    decide
  · have hmain : ∃ c, DiffOpts.main (fun _ => none) (fun n => ((diffWorld f1 f2).disk n).isSome) (fun _ => none) [str "a", str "b", str "d"] = .ok (.run c) ∧
        [c.file1, c.file2, c.diff] = [str "a.gdx", str "b.gdx", str "d.gdx"] ∧ c.opt.matrix = false ∧ c.opt.diffOnly = false ∧ c.opt.fldOnly = none := by
      rw [diffWorld_ex]
      have h : (match DiffOpts.main (fun _ => none) (fun n => decide (n = str "a.gdx" ∨ n = str "b.gdx" ∨ n = str "x.gdx")) (fun _ => none) [str "a", str "b", str "d"] with
          | .ok (.run c) => decide ([c.file1, c.file2, c.diff] = [str "a.gdx", str "b.gdx", str "d.gdx"] ∧ c.opt.matrix = false ∧ c.opt.diffOnly = false ∧ c.opt.fldOnly = none)
          | _ => false) = true := by decide +kernel
      split at h
      · rename_i c hc
        exact ⟨c, hc, of_decide_eq_true h⟩
      · cases h
    obtain ⟨c, c1, c2, c3, c4, c5⟩ := hmain
    injection c2 with c21 c2
    injection c2 with c22 c2
    injection c2 with c23 _
    obtain ⟨a, b, P, Q, o1, o2, o3, o4, o5⟩ := C85_own_partial hz c1 c3 (fun h => c5) (by intro f hf; rw [c5] at hf; cases hf) a1 b1
      (by rw [c21]; rfl) (by rw [c22]; rfl) write_opens (by omega) (by rw [c21]; unfold ZFree; decide +kernel) (by rw [c22]; unfold ZFree; decide +kernel) ⟨1, by omega, by omega, by
        unfold diffWorld
        dsimp only
        rw [if_neg (by decide +kernel), if_neg (by decide +kernel), if_neg (by decide +kernel)]⟩
      (by
        rintro tmp ⟨n, _, _, rfl, _⟩
        refine ⟨rfl, ?_, ?_⟩
        · rw [c23]
          intro h
          have := congrArg List.head? h
          revert this
          rw [show str "tmpdifffile" = 116 :: str "mpdifffile" by decide +kernel]
          simp only [List.cons_append, List.head?_cons]
          decide +kernel
        · rw [c23]
          have : str "d.gdx" ≠ str "x.gdx" := by decide +kernel
          exact decide_eq_true this)
      (.inl (by rw [c23]; unfold diffWorld; dsimp only; rw [if_neg (by decide +kernel), if_neg (by decide +kernel), if_neg (by decide +kernel)]))
    refine ⟨c, a, b, P, Q, c23, o3, o4, fun fuel h1 h2 => ?_⟩
    obtain ⟨a', P', p1, _, p2, _⟩ := a1.content hz
    obtain ⟨b', Q', q1, _, q2, _⟩ := b1.content hz
    rw [o1] at p1
    rw [o2] at q1
    cases p1
    cases q1
    obtain ⟨x, t, t1, _, _, file, r, _, hf, r1, r2, _, _, r3, _⟩ := o5 (fun n hn => regular_par p2 a5 n hn _) (fun n hn => regular_par q2 b5 n hn _) (fun _ _ h => absurd h.1 (by rw [c4]; exact Bool.false_ne_true))
      (fun _ _ h => absurd h.1 (by rw [c4]; exact Bool.false_ne_true)) fuel h1 h2 2 (by simp)
    exact ⟨x, t, t1, file, r, hf, r1, r2, c23 ▸ r3.1⟩

/-- `gdxdiff a b d`: the file `d.gdx` is the difference file, and the temporary file is gone -/
example : (do
      let (k, s, l) ← diffRun (exOrder true dbl03) (exOrder false dblSum) [str "a", str "b", str "d"] [str "a.gdx", str "d.gdx", str "tmpdifffile1.gdx"]
      let fa ← fileOf (exOrder true dbl03)
      pure (k, s, decide (l.head? = some (some fa)), l.map Option.isSome)) =
    .ok (1, str "GDXDIFF\nFile1 : a.gdx\nFile2 : b.gdx\nSummary of differences:\nP   Data are different\nOutput: d.gdx\nGDXDiff finished\n", true, [true, true, false]) := by decide +kernel
example : (do
      let (_, _, l) ← diffRun (exOrder true dbl03) (exOrder false dblSum) [str "a", str "b", str "d"] [str "d.gdx"]
      match l with
      | [some f] => readNames f
      | _ => .ub) = .ok [([80], 2, 1), (filesCompared, 1, 0)] := by decide +kernel

/-- a file and itself: exit code 0 -/
example : (do
      let (k, s, l) ← diffRun (exOrder true dbl03) (exOrder true dbl03) [str "a", str "a", str "IDE=Y"] [str "diffile.gdx"]
      pure (k, s, l.map Option.isSome)) =
    .ok (0, str "GDXDIFF\nFile1 : a.gdx\nFile2 : a.gdx\nNo differences found\nOutput: diffile.gdx\nGDXDiff file written: diffile.gdx[FIL:\"diffile.gdx\",0,0]\nGDXDiff finished\n", [true]) := by
  decide +kernel

/-- the exit codes 2, 3 and 4; nothing is left of the temporary file -/
example : (diffRun [] [] [str "a"] []) = .ok (2, str "Usage", []) := by decide +kernel
example : (do
      let (k, _, l) ← diffRun (exOrder true dbl03) [] [str "a", str "c"] [str "tmpdifffile1.gdx", str "diffile.gdx"]
      pure (k, l)) = .ok (3, [none, none]) := by decide +kernel
example : (do
      let (k, _, l) ← diffRun (exOrder true dbl03) [] [str "a", str "x"] [str "tmpdifffile1.gdx", str "diffile.gdx", str "x.gdx"]
      pure (k, l)) = .ok (4, [none, none, some (List.replicate 40 0)]) := by decide +kernel

/-! ### what goes wrong -/

/-- An input file that is also the output: gdxdiff.cpp:1123-1124 says that the original is kept, because it cannot be deleted while it is open. On POSIX it can:
    the input file is replaced by the difference file, with exit code 1. -/
theorem C85_input : (do
      let (k, _, l) ← diffRun (exOrder true dbl03) (exOrder false dblSum) [str "a", str "b", str "a"] [str "a.gdx"]
      match l with
      | [some f] => do
        let n ← readNames f
        pure (n, k)
      | _ => .ub) = .ok ([([80], 2, 1), (filesCompared, 1, 0)], 1) ∧
    (do
      let fa ← fileOf (exOrder true dbl03)
      readNames fa) = .ok [([112], 1, 1)] := by constructor <;> decide +kernel

/-- The output has the name of the temporary file: the difference file is deleted as if it were an old one, and nothing is left. The message says where it is. -/
theorem C85_temporary : (do
      let (k, s, l) ← diffRun (exOrder true dbl03) (exOrder false dblSum) [str "a", str "b", str "tmpdifffile1"] [str "tmpdifffile1.gdx"]
      pure (k, s, l)) =
    .ok (7, str "GDXDIFF\nFile1 : a.gdx\nFile2 : b.gdx\nSummary of differences:\nP   Data are different\nCould not rename tmpdifffile1.gdx to tmpdifffile1.gdx\nOutput: tmpdifffile1.gdx\nGDXDiff finished\n", [none]) := by decide +kernel

/-- The output is in another file system: the old file is deleted, the new one stays under the temporary name. -/
theorem C85_stuck : (do
      let (k, _, l) ← diffRun (exOrder true dbl03) (exOrder false dblSum) [str "a", str "b", str "x"] [str "x.gdx", str "tmpdifffile1.gdx"]
      pure (k, l.map Option.isSome)) = .ok (7, [false, true]) := by decide +kernel

#print axioms C85_exit_partial
#print axioms C85_codes
#print axioms C85_own_partial
#print axioms C85_input
#print axioms C85_temporary
#print axioms C85_stuck

end Gdx.Props
