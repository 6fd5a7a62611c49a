import Verif.Proofs.MergeCount
import Verif.Props.MergeOpts
import Verif.Props.MergeAll
import Verif.Props.MergeBig

/-!
C86: gdxmerge as a whole. What the exit code says, and what becomes of the output file.
-/

namespace Gdx.Props
open Gdx Gdx.Merge Gdx.Spec
open Gdx.MergeOpts Gdx.MergeMain
open Gdx.DiffOpts (str)
open Gdx.CmdLine (Text)

/-- what is said at the end: the number of errors, if there are some, and the number of files -/
def LastLines (strict : Bool) (errs read : Nat) (s : Str) : Prop :=
  ∃ a b, s = str "\n" ++ a ++ b ∧ ((errs = 0 ∧ a = []) ∨ (0 < errs ∧ a = str "Number of errors reported = " ++ intToStr errs ++ str "\n")) ∧
    ((read = 0 ∧ strict = true ∧ b = []) ∨ (read = 0 ∧ strict = false ∧ b = str "No valid input files specified\n") ∨
     (0 < read ∧ b = str "Merge complete, " ++ intToStr read ++ str " input files merged\n"))

theorem lastLines_is (strict : Bool) (errs read : Nat) : LastLines strict errs read (lastLines strict errs read) := by
  have e1 : str "\n" = [10] := by decide +kernel
  have e2 : str "No valid input files specified\n" = str "No valid input files specified" ++ [10] := by decide +kernel
  have e3 : str " input files merged\n" = str " input files merged" ++ [10] := by decide +kernel
  unfold lastLines
  refine ⟨_, _, by rw [e1], ?_, ?_⟩
  · by_cases h : errs > 0
    · rw [if_pos h, e1]; exact .inr ⟨h, rfl⟩
    · rw [if_neg h]; exact .inl ⟨by omega, rfl⟩
  · by_cases h : read = 0
    · rw [if_pos h]
      cases strict with
      | true => exact .inl ⟨h, rfl, rfl⟩
      | false => exact .inr (.inl ⟨h, rfl, by rw [e2]; rfl⟩)
    · rw [if_neg h, e3]
      exact .inr (.inr ⟨by omega, by simp only [List.append_assoc]⟩)

/-- A run of gdxmerge that has a defined end, for every command line of C75 and for all contents of the files: exit code 1 for an error in the
    arguments, and in strict mode also if no input file can be read; 0 otherwise. Without an error in the arguments the output file is the one of `merge`
    for the files that are given. `n`: the number of readable files, which is counted twice with BIG. -/
theorem C86_exit_partial {sys : Sys} {e : Env} {z : Cz} {srt : List MRec → List MRec} {args a : List Text} {q l : List (Int × Text)} (h0 : args ≠ [])
    (ha : ∀ x, args.head? = some x → ¬ SameNoCase x (str "AUDIT")) (hq : args ≠ [str "/?"]) (he : CmdLine.Expand sys.params args a)
    (hr : CmdLine.Means MergeOpts.documented a q) (hi : CmdLine.Input q l) (h : Valid l) (ht : Tidy sys (words l)) (hio : ∀ n, sys.disk n ≠ .ioErr 0) {r : Result}
    (hx : gdxmerge sys e z srt args = .ok r) :
    (MergeOpts.Bad sys l ∧ r.code = 1 ∧ r.last = [] ∧ ∀ n f, r.out ≠ .written n f) ∨
    (¬ MergeOpts.Bad sys l ∧ ∃ c fs file errs n, MergeOpts.Takes l c ∧ Uses sys c fs ∧ merge (opt c) e z srt (fs.map (inFile sys)) = .ok (file, errs) ∧
      r.out = .written c.out file ∧ Readable z (fs.map (inFile sys)) n ∧ (r.code = 1 ↔ n = 0 ∧ StrictIs l) ∧ (r.code = 0 ↔ ¬ (n = 0 ∧ StrictIs l)) ∧
      LastLines c.strict errs (if c.big.isSome then 2 * n else n) r.last) := by
  unfold gdxmerge at hx
  rcases C75_main_partial sys h0 ha hq he hr hi h ht with ⟨h1, d, b, h2⟩ | ⟨h1, c, fs, h2, h3, h4⟩
  · rw [h2] at hx
    injection hx with hx
    subst hx
    refine .inl ⟨h1, rfl, rfl, fun n f hf => ?_⟩
    dsimp only at hf
    cases b <;> cases d <;> cases hf
  · rw [h2, Res.bind_ok] at hx
    obtain ⟨s, s1, hx⟩ := Res.bind_eq_ok.mp (hx : (do
      let s ← mergeTo (opt c) e z srt (fs.map (inFile sys))
      let (m, _) ← gdxClose z s.out
      pure { code := if s.read = 0 ∧ c.strict = true then 1 else 0, out := .written c.out m.file, last := lastLines c.strict s.errs s.read }) = Res.ok r)
    obtain ⟨⟨m, k⟩, s2, hx⟩ := Res.bind_eq_ok.mp hx
    dsimp only at hx
    rw [Res.pure_eq] at hx
    injection hx with hx
    subst hx
    have hm : merge (opt c) e z srt (fs.map (inFile sys)) = .ok (m.file, s.errs) := by
      unfold merge
      rw [s1, Res.bind_ok, s2]
      rfl
    obtain ⟨n1, n2⟩ := (mergeTo_read (opt c) e z srt (fs.map (inFile sys)) (by
      intro f hf
      obtain ⟨x, _, rfl⟩ := List.mem_map.mp hf
      exact hio x.name)).of_ok s1
    generalize numOpen z (fs.map (inFile sys)) = n at n1 n2
    have hz : s.read = 0 ↔ n = 0 := by rw [n2]; split <;> omega
    refine .inr ⟨h1, c, fs, m.file, s.errs, n, h3, h4, hm, rfl, n1, ?_, ?_, ?_⟩
    · dsimp only
      rw [← h3.strict, ← hz]
      split
      · rename_i hc; exact ⟨fun _ => hc, fun _ => rfl⟩
      · rename_i hc; exact ⟨fun h => (nomatch h), fun h => absurd h hc⟩
    · dsimp only
      rw [← h3.strict, ← hz]
      split
      · rename_i hc; exact ⟨fun h => (nomatch h), fun h => absurd hc h⟩
      · rename_i hc; exact ⟨fun _ => hc, fun _ => rfl⟩
    · dsimp only
      rw [show (if c.big.isSome then 2 * n else n) = s.read from n2.symm]
      exact lastLines_is ..

/-- `gdxmerge` after the arguments are read, if all files can be opened -/
theorem gdxmerge_own {sys : Sys} {e : Env} {z : Cz} (hz : z.Good) {srt : List MRec → List MRec} {args : List Str} {c : MergeOpts.Conf} {fs : List MergeOpts.Found}
    (hx : MergeOpts.main sys args = .ok (.run c fs)) {ins : List OwnIn} (hf : fs.map (inFile sys) = ins.map OwnIn.inFile) (hne : ins ≠ []) (h : ∀ i ∈ ins, i.Ok z) {s : MState}
    (hs : mergeTo (opt c) e z srt (ins.map OwnIn.inFile) = .ok s) {f : List UInt8} {n : Nat} (hm : merge (opt c) e z srt (ins.map OwnIn.inFile) = .ok (f, n)) :
    ∃ r, gdxmerge sys e z srt args = .ok r ∧ r.code = 0 ∧ r.out = .written c.out f ∧ LastLines c.strict n (if c.big.isSome then 2 * ins.length else ins.length) r.last := by
  have hread : s.read = if c.big.isSome then 2 * ins.length else ins.length := by
    obtain ⟨_, n2⟩ := (mergeTo_read (opt c) e z srt (ins.map OwnIn.inFile) (by
      intro f hf
      obtain ⟨i, _, rfl⟩ := List.mem_map.mp hf
      intro h0
      cases h0)).of_ok hs
    rw [numOpen_all, List.length_map] at n2
    · exact n2
    · intro f hf
      obtain ⟨i, hi, rfl⟩ := List.mem_map.mp hf
      obtain ⟨a, u, srs, _, _, _, _, h1, _⟩ := own_input hz (h i hi)
      obtain ⟨a, b, h1, _⟩ := h1.file
      exact ⟨a, b, h1⟩
  have hlen : 0 < ins.length := List.length_pos_iff.mpr hne
  unfold merge at hm
  rw [hs, Res.bind_ok] at hm
  obtain ⟨⟨m, k⟩, s2, hm⟩ := Res.bind_eq_ok.mp hm
  cases hm
  refine ⟨{ code := if s.read = 0 ∧ c.strict = true then 1 else 0, out := .written c.out m.file, last := lastLines c.strict s.errs s.read }, ?_, ?_, rfl, ?_⟩
  · unfold gdxmerge
    rw [hx, Res.bind_ok]
    dsimp only
    rw [hf, hs, Res.bind_ok, s2]
    rfl
  · dsimp only
    rw [if_neg]
    rw [hread]
    rintro ⟨h0, _⟩
    revert h0
    split <;> omega
  · dsimp only
    rw [hread]
    exact lastLines_is ..

/-- Files of the library, without BIG: exit code 0, the output file is the one of C61, and the number of the files is right. `srss`: the symbols of the files. -/
theorem C86_own_partial {sys : Sys} {e : Env} {z : Cz} (hz : z.Good) {srt : List MRec → List MRec} (hs : Sorting srt) {args : List Str} {c : MergeOpts.Conf} {fs : List MergeOpts.Found}
    (hx : MergeOpts.main sys args = .ok (.run c fs)) (hbig : c.big = none) (hw : ∃ m r, openWriteEx e Gx.new false 0 Merge.producer (opt c).compr = .ok (m, r)) {ins : List OwnIn}
    (hf : fs.map (inFile sys) = ins.map OwnIn.inFile) (hne : ins ≠ []) (h : ∀ i ∈ ins, i.Ok z ∧ GoodLabel i.id ∧ ZFree i.info) (hid : ins.Pairwise fun a b => ¬ SameNoCase a.id b.id)
    (hl : (ins.map fun i => i.labels.length + 2).sum ≤ 2147483391) (ht : (ins.map fun i => i.texts.length).sum < 2147483647)
    (hr : (ins.map OwnIn.nrecs).sum ≤ 2147483647) (hsy : (ins.map fun i => i.syms.length).sum ≤ 2147483647) :
    ∃ srss, List.Forall₂ OwnIn.Symbols ins srss ∧ ∃ s r f n, mergeTo (opt c) e z srt (ins.map OwnIn.inFile) = .ok s ∧
      gdxmerge sys e z srt args = .ok r ∧ r.code = 0 ∧ r.out = .written c.out f ∧ LastLines c.strict n ins.length r.last ∧ Errors (opt c) srss.flatten n ∧
        (FileFits s.out → (f.length : Int) ≤ 9223372036854775807 →
        ∀ g0, Reader g0 → ∃ g, openRead z g0 (.content f) = .ok (g, (true, 0)) ∧ MergedFile (opt c) z (ins.map OwnIn.inFile) srss.flatten g) := by
  obtain ⟨srss, t1, s, f, n, t2, hm, t4, t3⟩ := C61_own_partial (o := opt c) hz hs hbig (show I32 0 by unfold I32; decide) hw h hid hl ht hr hsy
  obtain ⟨r, r1, r2, r3, r4⟩ := gdxmerge_own hz hx hf hne (fun i hi => (h i hi).1) t2 hm
  rw [hbig] at r4
  exact ⟨srss, t1, s, r, f, n, t2, r1, r2, r3, r4, t4, t3⟩

/-- The same with BIG, under the conditions of C62; but here every file is counted twice. -/
theorem C86_big_partial {sys : Sys} {e : Env} {z : Cz} (hz : z.Good) {srt : List MRec → List MRec} (hs : Sorting srt) {args : List Str} {c : MergeOpts.Conf} {fs : List MergeOpts.Found}
    (hx : MergeOpts.main sys args = .ok (.run c fs)) {k : Int} (hbig : c.big = some k) (hw : ∃ m r, openWriteEx e Gx.new false 0 Merge.producer (opt c).compr = .ok (m, r)) {ins : List OwnIn}
    (hf : fs.map (inFile sys) = ins.map OwnIn.inFile) (hne : ins ≠ []) (h : ∀ i ∈ ins, i.Ok z ∧ GoodLabel i.id ∧ ZFree i.info) (hid : ins.Pairwise fun a b => ¬ SameNoCase a.id b.id)
    (hl : (ins.map fun i => i.labels.length + 2).sum < 2147483391) (ht : (ins.map fun i => i.texts.length).sum < 2147483647)
    (hr : (ins.map OwnIn.nrecs).sum ≤ 2147483647) (hsy : (ins.map fun i => i.syms.length).sum ≤ 2147483647) :
    ∃ srss, List.Forall₂ OwnIn.Symbols ins srss ∧ (Merge.Agree (opt c) srss.flatten →
      (∀ s ∈ srss.flatten, (weight (srss.flatten.filter fun t => sameText false s.name t.name) : Int) < k ∨ 1 ≤ s.dim ∧ s.dim ≤ 17) →
      ∃ s r f n, mergeTo (opt c) e z srt (ins.map OwnIn.inFile) = .ok s ∧
      gdxmerge sys e z srt args = .ok r ∧ r.code = 0 ∧ r.out = .written c.out f ∧ LastLines c.strict n (2 * ins.length) r.last ∧ (∃ m, Errors (opt c) srss.flatten m ∧ n ≤ m) ∧
        (FileFits s.out → (f.length : Int) ≤ 9223372036854775807 →
        ∀ g0, Reader g0 → ∃ g, openRead z g0 (.content f) = .ok (g, (true, 0)) ∧ BigFile (opt c) z k (ins.map OwnIn.inFile) srss.flatten g)) := by
  obtain ⟨srss, t1, t⟩ := C62_own_partial (o := opt c) hz hs hbig (show I32 0 by unfold I32; decide) hw h hid hl ht hr hsy
  refine ⟨srss, t1, fun ha hd => ?_⟩
  obtain ⟨s, f, n, t2, hm, t4, t3⟩ := t ha hd
  obtain ⟨r, r1, r2, r3, r4⟩ := gdxmerge_own hz hx hf hne (fun i hi => (h i hi).1) t2 hm
  rw [hbig] at r4
  exact ⟨s, r, f, n, t2, r1, r2, r3, r4, t4, t3⟩

/-! ### Examples -/

/-- the directory of `exSys`, with contents for `a.gdx` and the other file -/
def mergeSys (a b : List UInt8) : Sys :=
  { exSys with
    find := fun p => if p = str "d/*" then [str "a.gdx", str "b.gdx"] else if p = str "d/a.gdx" then [str "a.gdx"] else if p = str "d/old.gdx" then [str "old.gdx"] else []
    disk := fun n => if n = str "d/a.gdx" then .content a else if n = str "d/b.gdx" then .content b else .ioErr 2 }

/-- a run with files that these programs write: the exit code, the names in the output file, and the last lines -/
def mergeRun (a b : List Call) (args : List String) : Res (Nat × List Str × Str) := do
  let f ← fileOf a
  let g ← fileOf b
  let r ← gdxmerge (mergeSys f g) ⟨[]⟩ Cz.id (fun l => l.foldr insRec []) (args.map str)
  match r.out with
  | .written _ f => do
    let l ← readNames f
    pure (r.code, l.map fun x => x.1, r.last)
  | _ => pure (r.code, [], r.last)

/-- the code and the last lines, for any contents -/
def mergeCode (a b : List UInt8) (args : List String) : Res (Nat × Bool × Str) := do
  let r ← gdxmerge (mergeSys a b) ⟨[]⟩ Cz.id (fun l => l.foldr insRec []) (args.map str)
  match r.out with
  | .written _ _ => pure (r.code, true, r.last)
  | _ => pure (r.code, false, r.last)

/-- two files -/
example : mergeRun (exPar dbl03) (exPar dblSum) ["d/*", "o=d/new"] =
    .ok (0, [[112], mergedSet ++ [49]], str "\nMerge complete, 2 input files merged\n") := by decide +kernel

/-- symbols of different types: an error is reported, the exit code is 0 -/
theorem C86_errors : mergeRun (exPar dbl03) (exVar dbl03 dblSum) ["d/*", "o=d/new"] =
    .ok (0, [[112], mergedSet ++ [49]], str "\nNumber of errors reported = 1\nMerge complete, 2 input files merged\n") := by decide +kernel

/-- With BIG every file is counted twice. -/
theorem C86_count : mergeRun (exPar dbl03) (exPar dblSum) ["d/*", "o=d/new", "big=1000"] =
    .ok (0, [[112], mergedSet ++ [49]], str "\nMerge complete, 4 input files merged\n") := by decide +kernel

/-- No file can be read: the exit code is 0, though nothing was merged; 1 in strict mode. The output file is written in both cases, -/
theorem C86_none : mergeCode (List.replicate 40 0) [] ["d/a.gdx", "o=d/new"] = .ok (0, true, str "\nNo valid input files specified\n") ∧
    mergeCode (List.replicate 40 0) [] ["d/a.gdx", "o=d/new", "strict=true"] = .ok (1, true, str "\n") := by
  constructor <;> decide +kernel

/-- A file of two cannot be read: the exit code is 0 even in strict mode. -/
theorem C86_unread : (do
    let f ← fileOf (exPar dbl03)
    mergeCode (List.replicate 40 0) f ["d/*", "o=d/new", "strict=true"]) = .ok (0, true, str "\nMerge complete, 1 input files merged\n") := by decide +kernel

/-- The output file is given as input, too: it is deleted, replaced by a file without symbols, and the exit code is 0. -/
theorem C86_input : mergeRun (exPar dbl03) (exPar dblSum) ["d/old.gdx", "o=d/old.gdx"] =
    .ok (0, [mergedSet ++ [49]], str "\nNo valid input files specified\n") := by decide +kernel

#print axioms C86_exit_partial
#print axioms C86_own_partial
#print axioms C86_big_partial
#print axioms C86_errors
#print axioms C86_count
#print axioms C86_none
#print axioms C86_unread
#print axioms C86_input

end Gdx.Props
