import Verif.Proofs.DiffClose
import Verif.Props.Merge

/-!
C87 for the tools: gdxmerge and gdxdiff never accept a text that their output file cannot take.
-/

namespace Gdx.Props
open Gdx Gdx.Spec

/-- gdxmerge, for all input files and options: the comments and acronyms of the output file are short enough for gdxClose when it is called. -/
theorem C87_merge {o : Merge.Opt} {e : Env} {z : Cz} {srt : List Merge.MRec → List Merge.MRec} {fs : List Merge.InFile} {s : Merge.MState}
    (h : Merge.mergeTo o e z srt fs = .ok s) : CommentsEnd s.out ∧ AcronymsShort s.out := (mergeTo_closable o e z srt fs).of_ok h

/-- gdxdiff, for all input files and options: the same for the difference file. -/
theorem C87_diff {o : Diff.Opt} {e : Env} {z : Cz} {fuel fuel' : Nat} {f1 f2 : List UInt8} {x : Diff.Objs} {t : List (Str × Diff.Status)} {in1 in2 : Str} {g : Gx}
    (h : Diff.statusTable o e z fuel f1 f2 = .ok (some (x, t))) (hf : Diff.finishTo z fuel' x.gd in1 in2 = .ok g) : CommentsEnd g ∧ AcronymsShort g :=
  (finishTo_closable z fuel' x.gd in1 in2 ((statusTable_closable o e z fuel f1 f2).of_ok h x t rfl)).of_ok hf

/-- a file with an acronym: it is taken over to the output of gdxmerge -/
example : ((do
      let f ← fileOf exAcr
      let s ← Merge.mergeTo {} ⟨[]⟩ Cz.id (fun l => l) [⟨[102], [], .content f⟩]
      pure ((s.out.acros.getD []).map fun a : Acr => (a.name, a.map)) : Res (List (Str × Int)))) = .ok [([112], 1)] := by decide +kernel

/-- two files with different values, one of them an acronym: in the difference file it has no name -/
example : ((do
      let f ← fileOf exAcr
      let f' ← fileOf (exSc dbl03)
      match ← Diff.statusTable {} ⟨[]⟩ Cz.id 100 f f' with
      | some (x, _) => do
        let g ← Diff.finishTo Cz.id 100 x.gd [102] [103]
        pure ((g.acros.getD []).map fun a : Acr => (a.name, a.map))
      | none => .ub : Res (List (Str × Int)))) = .ok [([], 1)] := by decide +kernel

#print axioms C87_merge
#print axioms C87_diff

end Gdx.Props
