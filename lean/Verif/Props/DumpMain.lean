import Verif.Model.DumpMain
import Verif.Props.DumpOpts
import Verif.Props.DumpLoad
import Verif.Props.DumpLists
import Verif.Props.Opening
import Verif.Props.IntText

/-!
C84: gdxdump as a whole. What the exit code says, where the output goes and what it is.
-/

namespace Gdx.Props
open Gdx Gdx.Dump Gdx.DblStr Gdx.Diff Gdx.Gams Gdx.Spec
open Gdx.DumpOpts Gdx.DumpMain
open Gdx.DiffOpts (str InName)

/-- an error number of a refused file is not 0 -/
theorem refused_ne {dec : Bool → Bytes → Bytes} {f : Bytes} {t : Bool} {n : Int} (h : Refused dec f t n) : n ≠ 0 := by
  have parts : ∀ {mark : Bytes} {n : Int} {ps : List ((Bytes → Prop) × Int)} {l : Bytes}, (∀ p ∈ ps, p.2 ≠ 0) → PartsFail mark n ps l → n ≠ 0 := by
    intro mark n ps
    induction ps with
    | nil => intro l _ h; exact absurd h (by simp [PartsFail])
    | cons p ps ih =>
      intro l hp h
      rcases h with ⟨_, _, _, _, _, rfl⟩ | ⟨_, r, _, _, h⟩
      · exact hp p (by simp)
      · exact ih (fun q hq => hp q (by simp [hq])) h
  have fail : ∀ {s : Sect} {n : Int} {l : Bytes}, s.code ≠ 0 → (∀ p ∈ s.parts, p.2 ≠ 0) → s.Fail n l → n ≠ 0 := by
    intro s n l h1 h2 h
    rcases h with ⟨_, rfl⟩ | ⟨r, _, h⟩
    · exact h1
    · exact parts h2 h
  cases h with
  | order _ _ hn => rw [hn]; decide
  | header _ _ _ _ hn => rw [hn]; decide
  | product _ _ _ hn => rw [hn]; decide
  | version _ _ _ _ hn => rw [hn]; decide
  | index _ _ _ _ _ _ _ _ _ hn => rw [hn]; decide
  | table v c fs ps _ a b s hs _ _ hf =>
    have hm : s ∈ sects v fs ps t := by rw [hs]; simp
    have : s.1.code ≠ 0 ∧ ∀ p ∈ s.1.parts, p.2 ≠ 0 := by
      unfold sects at hm
      simp only [List.mem_append, List.mem_cons, List.not_mem_nil, or_false] at hm
      rcases hm with (((rfl | rfl) | hm) | hm) | hm
      · simp [symbSect]
      · simp [uelSect]
      · split at hm
        · simp only [List.mem_cons, List.not_mem_nil, or_false] at hm
          subst hm
          simp [textSect]
        · cases hm
      · split at hm
        · simp only [List.mem_cons, List.not_mem_nil, or_false] at hm
          subst hm
          simp [acroSect]
        · cases hm
      · split at hm
        · simp only [List.mem_cons, List.not_mem_nil, or_false] at hm
          subst hm
          simp [domsSect]
        · cases hm
    exact fail this.1 this.2 hf

/-- an opened file has no error -/
theorem open_clean {z : Cz} {g0 g : Gx} {d : Disk} {e : Int} (h : openRead z g0 d = .ok (g, (true, e))) : g.lastErr = 0 := by
  unfold openRead openReadXX at h
  split at h
  · rw [Res.pure_eq] at h
    injection h with h
    injection h with _ h
    cases h
  · cases d with
    | noName => cases h
    | ioErr e => cases h
    | content f =>
      dsimp only at h
      obtain ⟨⟨o, l⟩, _, h⟩ := Res.bind_eq_ok.mp h
      dsimp only at h
      split at h
      · cases h
      split at h
      · cases h
      obtain ⟨⟨g1, x⟩, _, h⟩ := Res.bind_eq_ok.mp h
      cases x with
      | none => cases h
      | some ix =>
        dsimp only at h
        obtain ⟨⟨g2, ok⟩, _, h⟩ := Res.bind_eq_ok.mp h
        dsimp only at h
        split at h
        · cases h
        · rw [Res.pure_eq] at h
          injection h with h
          injection h with h _
          rw [← h]

/-- opening, for every content: exit code 4 exactly for a file that is refused, and never exit code 5 -/
theorem opened_spec {w : World} {z : Cz} {n : Str} {f : List UInt8} (hf : w.disk n = some f) {x : Except Nat Gx} (h : opened w z n = .ok x) :
    (x = .error 4 ∧ ∃ e, Refused z.rd f true e) ∨ (∃ g, x = .ok g ∧ openRead z Gx.new (.content f) = .ok (g, (true, 0)) ∧ Spec.Accepted z.rd f true) := by
  unfold opened at h
  rw [hf] at h
  obtain ⟨⟨g, b, err⟩, h1, h⟩ := Res.bind_eq_ok.mp h
  dsimp only at h
  have := C41_opening z Gx.new f 0 rfl
  rw [show openReadXX z Gx.new (.content f) 0 = openRead z Gx.new (.content f) from rfl, h1] at this
  have this : if b = true then Spec.Accepted z.rd f (decide ((0 : Int) % 2 = 0)) ∧ err = 0 ∧ g.mode = .rInit ∧ g.stat = .read
      else Refused z.rd f (decide ((0 : Int) % 2 = 0)) err ∧ g.lastErr = err ∧ g.opened = false ∧ g.mode = .notOpen ∧ g.stat = Gx.new.stat := this
  cases b with
  | false =>
    obtain ⟨t1, _⟩ := this
    left
    rw [if_pos (refused_ne t1), Res.pure_eq] at h
    injection h with h
    exact ⟨h.symm, err, t1⟩
  | true =>
    obtain ⟨t1, t2, _⟩ := this
    right
    subst t2
    have hl : g.lastErr = 0 := open_clean h1
    rw [if_neg (by simp), if_neg (by unfold getLastError; simp [hl]), Res.pure_eq] at h
    injection h with h
    exact ⟨g, h.symm, h1, t1⟩

/-- there is no symbol of this name (`*` is the universe) -/
def Missing (g : Gx) (s : Str) : Prop := s ≠ [42] ∧ ∀ syms, g.names = some syms → ∀ x ∈ syms, ¬ SameNoCase x.name s

theorem find_missing {g : Gx} {s : Str} : (findSymbol g s).1 = false ↔ Missing g s := by
  unfold findSymbol Missing
  by_cases hs : s = star
  · rw [if_pos hs]
    simp only [Bool.true_eq_false, false_iff, not_and]
    exact fun h => absurd hs h
  · rw [if_neg hs]
    cases hn : g.names with
    | none => simp; exact hs
    | some l =>
      dsimp only
      rw [decide_eq_false_iff_not, symIndex_none]
      refine ⟨fun h => ⟨hs, fun syms e => ?_⟩, fun h => h.2 l rfl⟩
      injection e with e
      subst e
      exact h

theorem oneSymbol_code {r : Run} {z : Cz} {fuel : Nat} {g : Gx} {s t : Str} {c lc : Nat} (h : oneSymbol r z fuel g s = .ok (t, c, lc)) :
    (c = 0 ∨ c = 6) ∧ (c = 6 ↔ Missing g s) := by
  rw [← find_missing]
  unfold oneSymbol at h
  dsimp only at h
  by_cases hb : (findSymbol g s).1 = false
  · rw [if_pos hb, Res.pure_eq] at h
    injection h with h
    injection h with _ h
    injection h with h _
    subst h
    simp [hb]
  · rw [if_neg hb] at h
    have : c = 0 := by
      cases hf : r.fmt with
      | csv =>
        rw [hf] at h
        obtain ⟨⟨g1, t1⟩, _, h⟩ := Res.bind_eq_ok.mp h
        cases h
        rfl
      | normal =>
        rw [hf] at h
        obtain ⟨⟨g1, t1⟩, _, h⟩ := Res.bind_eq_ok.mp h
        cases h
        rfl
      | gamsbas =>
        rw [hf] at h
        obtain ⟨⟨g1, t1, l1⟩, _, h⟩ := Res.bind_eq_ok.mp h
        cases h
        rfl
    subst this
    simp [hb]

theorem body_code {r : Run} {z : Cz} {fuel : Nat} {g : Gx} {t : Str} {c : Nat} (h : body r z fuel g = .ok (t, c)) :
    (c = 0 ∨ c = 6) ∧ (c = 6 ↔ ∃ s, (r.act = .one s ∨ r.act = .csv s) ∧ Missing g s) := by
  unfold body at h
  split at h
  · rename_i ha
    obtain ⟨t1, _, h⟩ := Res.bind_eq_ok.mp h
    cases h
    simp [ha]
  · rename_i ha
    obtain ⟨t1, _, h⟩ := Res.bind_eq_ok.mp h
    cases h
    simp [ha]
  · rename_i ha
    cases h
    simp [ha]
  · rename_i ha
    obtain ⟨⟨g1, t1⟩, _, h⟩ := Res.bind_eq_ok.mp h
    cases h
    simp [ha]
  · rename_i ha
    obtain ⟨⟨g1, t1⟩, _, h⟩ := Res.bind_eq_ok.mp h
    cases h
    simp [ha]
  · rename_i ha
    obtain ⟨⟨g1, t1⟩, _, h⟩ := Res.bind_eq_ok.mp h
    cases h
    simp [ha]
  · rename_i s ha
    obtain ⟨⟨t1, c1, l1⟩, h1, h⟩ := Res.bind_eq_ok.mp h
    cases h
    obtain ⟨k1, k2⟩ := oneSymbol_code h1
    refine ⟨k1, k2.trans ⟨fun h => ⟨s, Or.inr ha, h⟩, ?_⟩⟩
    rintro ⟨s', hs | hs, h⟩
    · rw [ha] at hs; cases hs
    · rw [ha] at hs; cases hs; exact h
  · rename_i s ha
    obtain ⟨⟨t1, c1, l1⟩, h1, h⟩ := Res.bind_eq_ok.mp h
    cases h
    obtain ⟨k1, k2⟩ := oneSymbol_code h1
    refine ⟨k1, k2.trans ⟨fun h => ⟨s, Or.inl ha, h⟩, ?_⟩⟩
    rintro ⟨s', hs | hs, h⟩
    · rw [ha] at hs; cases hs; exact h
    · rw [ha] at hs; cases hs
  · rename_i ha
    obtain ⟨⟨t1, l1⟩, _, h⟩ := Res.bind_eq_ok.mp h
    cases h
    simp [ha]

/-- What a run leaves that opened the file: exit code 6 and nothing if the output file cannot be opened; else what was asked for, in the output file or on the standard output, and exit code
    6 exactly if there is no symbol of the name given. -/
def Leaves (w : World) (z : Cz) (fuel : Nat) (r : Run) (g : Gx) (res : Result) : Prop :=
  (r.out ≠ [] ∧ w.canWrite r.out = false ∧ res = { code := 6 }) ∨
  ((r.out = [] ∨ w.canWrite r.out = true) ∧ ∃ p t, front r g = .ok p ∧ body r z fuel g = .ok (t, res.code) ∧
    (r.out = [] → res.std = p ++ t ∧ res.file = none) ∧ (r.out ≠ [] → res.std = ideLine r ∧ res.file = some (r.out, p ++ t)) ∧
    (res.code = 0 ∨ res.code = 6) ∧ (res.code = 6 ↔ ∃ s, (r.act = .one s ∨ r.act = .csv s) ∧ Missing g s))

theorem dump_leaves {w : World} {z : Cz} {fuel : Nat} {r : Run} {g : Gx} {res : Result} (h : dump w z fuel r g = .ok res) : Leaves w z fuel r g res := by
  unfold dump at h
  split at h
  · rename_i hc
    injection h with h
    exact Or.inl ⟨hc.1, hc.2, h.symm⟩
  rename_i hc
  split at h
  · cases h
  obtain ⟨p, h1, h⟩ := Res.bind_eq_ok.mp h
  obtain ⟨⟨t, c⟩, h2, h⟩ := Res.bind_eq_ok.mp h
  dsimp only at h
  rw [Res.pure_eq] at h
  injection h with h
  subst h
  refine Or.inr ⟨?_, p, t, h1, h2, ?_, ?_, body_code h2⟩
  · by_cases ho : r.out = []
    · exact Or.inl ho
    · right
      cases hw : w.canWrite r.out with
      | true => rfl
      | false => exact absurd ⟨ho, hw⟩ hc
  · intro ho
    simp [ho, ideLine]
  · intro ho
    simp [ho]

/-- C84, the exit code, for every command line (of the kind of C79) and every content of the files, if the run has a defined end: 1 for arguments that are not accepted, 2 if there is no such
    file, 4 if the file is refused by the library, 6 if the output file cannot be opened or there is no symbol of the name given, else 0; 3 and 5 never. What is written is what the option
    asks for, and nothing else is written to a file. What is missing: as in C79; undefined ends (long strings, values that are not finite and damaged files, see C60, C66 and C79). -/
theorem C84_exit_partial {w : World} {z : Cz} {fuel : Nat} {dtoa : Dbl → Digits} {file : Str} {args : List Str} {l : List (Key × Str)} {u : Bool} (ha : ¬ SameNoCase file (str "AUDIT"))
    (hm : Means args l u) (hlen : ∀ a ∈ args, a.length ≤ 254) (hp : DumpOpts.Plain l) {res : Result} (h : gdxdump w z fuel dtoa (file :: args) = .ok res) :
    ((Bad l u ∨ Conflict l) ∧ res.code = 1 ∧ res.file = none) ∨
    (¬ Bad l u ∧ ¬ Conflict l ∧ ∃ n, InName (fun n => (w.disk n).isSome) file n ∧
      ((w.disk n = none ∧ res = { code := 2 }) ∨
       ∃ f, w.disk n = some f ∧
        (((∃ e, Refused z.rd f true e) ∧ res = { code := 4 }) ∨
         (Spec.Accepted z.rd f true ∧ ∃ g, openRead z Gx.new (.content f) = .ok (g, (true, 0)) ∧
          ((DumpOpts.Given l .version ∧ ∃ t, versionText g = .ok t ∧ res = { code := 0, std := t }) ∨
           (¬ DumpOpts.Given l .version ∧ ∃ r, Takes (fun n => (w.disk n).isSome) file l r ∧ r.input = n ∧ r.opt.dtoa = dtoa ∧ Leaves w z fuel r g res)))))) := by
  unfold gdxdump at h
  rcases C79_options_partial (fun n => (w.disk n).isSome) dtoa ha hm hlen hp with ⟨h1, h2⟩ | ⟨h0, h1, h2⟩ | ⟨h0, h1, n, h3, h4, h2⟩ | ⟨h0, h1, n, h3, h4, h2⟩
  · rw [h2, Res.bind_ok] at h
    dsimp only at h
    rw [Res.pure_eq] at h
    injection h with h
    subst h
    exact Or.inl ⟨Or.inl h1, rfl, rfl⟩
  · rw [h2, Res.bind_ok] at h
    dsimp only at h
    rw [Res.pure_eq] at h
    injection h with h
    subst h
    exact Or.inl ⟨Or.inr h1, rfl, rfl⟩
  · rw [h2, Res.bind_ok] at h
    dsimp only at h
    rw [Res.pure_eq] at h
    injection h with h
    refine Or.inr ⟨h0, h1, n, h3, Or.inl ⟨?_, h.symm⟩⟩
    cases hd : w.disk n with
    | none => rfl
    | some f => rw [hd] at h4; cases h4
  · refine Or.inr ⟨h0, h1, n, h3, Or.inr ?_⟩
    cases hd : w.disk n with
    | none => rw [hd] at h4; cases h4
    | some f =>
      refine ⟨f, rfl, ?_⟩
      rcases h2 with ⟨hv, h2⟩ | ⟨hv, r, h2, hdt, ht⟩
      · rw [h2, Res.bind_ok] at h
        dsimp only at h
        obtain ⟨x, h5, h⟩ := Res.bind_eq_ok.mp h
        rcases opened_spec hd h5 with ⟨rfl, he⟩ | ⟨g, rfl, hg, hacc⟩
        · dsimp only at h
          rw [Res.pure_eq] at h
          injection h with h
          exact Or.inl ⟨he, h.symm⟩
        · dsimp only at h
          obtain ⟨t, h6, h⟩ := Res.bind_eq_ok.mp h
          rw [Res.pure_eq] at h
          injection h with h
          exact Or.inr ⟨hacc, g, hg, Or.inl ⟨hv, t, h6, h.symm⟩⟩
      · have hin : r.input = n := by
          rcases ht.input with ⟨a1, a2⟩ | ⟨a1, a2⟩ <;> rcases h3 with ⟨b1, b2⟩ | ⟨b1, b2⟩
          · rw [a2, b2]
          · exact absurd a1 b1
          · exact absurd b1 a1
          · rw [a2, b2]
        rw [h2, Res.bind_ok] at h
        dsimp only at h
        rw [hin] at h
        obtain ⟨x, h5, h⟩ := Res.bind_eq_ok.mp h
        rcases opened_spec hd h5 with ⟨rfl, he⟩ | ⟨g, rfl, hg, hacc⟩
        · dsimp only at h
          rw [Res.pure_eq] at h
          injection h with h
          exact Or.inl ⟨he, h.symm⟩
        · dsimp only at h
          exact Or.inr ⟨hacc, g, hg, Or.inr ⟨hv, r, ht, hin, hdt, dump_leaves h⟩⟩

/-! ## files of the library -/

/-- the text is in the output file, if there is one, else on the standard output -/
def OutputIs (l : List (Key × Str)) (t : Str) (res : Result) : Prop :=
  (¬ DumpOpts.Given l .output ∧ res.std = t ∧ res.file = none) ∨ ∃ v, (Key.output, v) ∈ l ∧ res.file = some (v, t) ∧ (res.std = [] ∨ DumpOpts.Given l .ide)

/-- options that select another format or a list -/
def special : List Key := [.format, .delim, .decSep, .uelTable, .symbols, .asSet, .asSetDI, .domainInfo, .setText, .version]

theorem format_normal {l : List (Key × Str)} (h : ¬ DumpOpts.Given l .format) {f : OFmt} (hf : FormatOf l f) : f = .normal := by
  rcases hf with ⟨_, rfl⟩ | ⟨v, hv, _⟩
  · rfl
  · exact absurd ⟨v, hv⟩ h

theorem sep_normal {l : List (Key × Str)} (h : ¬ DumpOpts.Given l .decSep) {c : UInt8} (hf : SepOf l c) : c = 46 := by
  rcases hf with ⟨_, rfl⟩ | ⟨v, hv, _⟩
  · rfl
  · exact absurd ⟨v, hv⟩ h

theorem delim_normal {l : List (Key × Str)} (h : ¬ DumpOpts.Given l .format) (h2 : ¬ DumpOpts.Given l .delim) {c : UInt8} (hf : DelimOf l c) : c = 46 := by
  rcases hf with ⟨_, ⟨hc, _⟩ | ⟨_, rfl⟩⟩ | ⟨v, hv, _⟩
  · have := format_normal h hc
    cases this
  · rfl
  · exact absurd ⟨v, hv⟩ h2

theorem no_conflict {l : List (Key × Str)} (h : ∀ k ∈ special, ¬ DumpOpts.Given l k) : ¬ Conflict l := by
  rintro (⟨hd, _, hc⟩ | ⟨hf, _⟩)
  · exact hc (delim_normal (h _ (by decide)) (h _ (by decide)) hd)
  · have := format_normal (h _ (by decide)) hf
    cases this

theorem takes_plain {ex : Str → Bool} {file : Str} {l : List (Key × Str)} {r : Run} (t : Takes ex file l r) (h : ∀ k ∈ special, ¬ DumpOpts.Given l k) :
    r.fmt = .normal ∧ r.opt.delim = 46 ∧ r.opt.sep = 46 ∧ r.uels = [] ∧ (¬ DumpOpts.Given l .symb → r.act = .all ∧ r.opt.showHdr = true) ∧
      (DumpOpts.Given l .symb → ∃ s, (Key.symb, s) ∈ l ∧ r.act = .one s) := by
  have hf := format_normal (h _ (by decide)) t.fmt
  refine ⟨hf, delim_normal (h _ (by decide)) (h _ (by decide)) t.delim, sep_normal (h _ (by decide)) t.sep, ?_, ?_⟩
  · rcases t.uels with ⟨_, hu⟩ | hu
    · exact hu
    · exact absurd ⟨_, hu⟩ (h .uelTable (by decide))
  obtain ⟨s, hs, ha⟩ := t.act
  generalize r.act = act at ha ⊢
  have skip : ∀ {P : Prop} {b : DumpOpts.Act} {L : List (Prop × DumpOpts.Act)}, ¬ P → First ((P, b) :: L) act → First L act := by
    intro P b L hn hf
    cases hf with
    | here p => exact absurd p hn
    | there _ k => exact k
  have key : First [(DumpOpts.Given l .symb, .one s), (True, .all)] act := by
    refine skip ?_ (skip ?_ (skip ?_ (skip ?_ (skip ?_ (skip ?_ (skip ?_ ha))))))
    · rw [hf]; simp
    all_goals first | exact h _ (by decide) | exact fun p => h _ (by decide) p.1
  constructor
  · intro hns
    constructor
    · cases skip hns key with
      | here _ => rfl
      | there p _ => exact absurd trivial p
    · cases hh : r.opt.showHdr with
      | true => rfl
      | false =>
        rcases t.showHdr.mp hh with p | p
        · rw [hf] at p; cases p
        · exact absurd p.2 hns
  · intro hsy
    refine ⟨s, ?_, ?_⟩
    · rcases hs with ⟨p, _⟩ | p
      · exact absurd hsy p
      · exact p
    · cases key with
      | here _ => rfl
      | there p _ => exact absurd hsy p

theorem given_last {l : List (Key × Str)} {k : Key} {v : Str} (h : DumpOpts.Last l k v) : (k, v) ∈ l := by
  obtain ⟨a, b, rfl, _⟩ := h
  simp

/-- gdxdump for a file of the library: the options and the file are accepted -/
theorem own_start {w : World} {z : Cz} {dtoa : Dbl → Digits} {file : Str} {args : List Str} {l : List (Key × Str)} (ha : ¬ SameNoCase file (str "AUDIT"))
    (hm : Means args l false) (hlen : ∀ a ∈ args, a.length ≤ 254) (hp : DumpOpts.Plain l) (hbad : ¬ Bad l false) (hcon : ¬ Conflict l) (hver : ¬ DumpOpts.Given l .version) {n : Str}
    (hn : InName (fun n => (w.disk n).isSome) file n) {f : List UInt8} (hd : w.disk n = some f) {a : Gx}
    (hop : openRead z Gx.new (.content f) = .ok (a, (true, 0))) :
    ∃ r, Takes (fun n => (w.disk n).isSome) file l r ∧ r.input = n ∧ r.opt.dtoa = dtoa ∧ ∀ fuel, gdxdump w z fuel dtoa (file :: args) = dump w z fuel r a := by
  rcases C79_options_partial (fun n => (w.disk n).isSome) dtoa ha hm hlen hp with ⟨h1, _⟩ | ⟨_, h1, _⟩ | ⟨_, _, m, h3, h4, _⟩ | ⟨_, _, m, h3, h4, h2⟩
  · exact absurd h1 hbad
  · exact absurd h1 hcon
  · exfalso
    have : m = n := by
      rcases hn with ⟨a1, a2⟩ | ⟨a1, a2⟩ <;> rcases h3 with ⟨b1, b2⟩ | ⟨b1, b2⟩
      · rw [a2, b2]
      · exact absurd a1 b1
      · exact absurd b1 a1
      · rw [a2, b2]
    subst this
    rw [hd] at h4
    cases h4
  · rcases h2 with ⟨hv, _⟩ | ⟨_, r, h2, hdt, ht⟩
    · exact absurd hv hver
    have hin : r.input = n := by
      rcases hn with ⟨a1, a2⟩ | ⟨a1, a2⟩ <;> rcases ht.input with ⟨b1, b2⟩ | ⟨b1, b2⟩
      · rw [a2, b2]
      · exact absurd a1 b1
      · exact absurd b1 a1
      · rw [a2, b2]
    refine ⟨r, ht, hin, hdt, fun fuel => ?_⟩
    have hopen : opened w z n = .ok (.ok a) := by
      unfold opened
      rw [hd]
      dsimp only
      rw [hop, Res.bind_ok]
      dsimp only
      rw [if_neg (by simp), if_neg (by unfold getLastError; simp [open_clean hop])]
      rfl
    unfold gdxdump
    rw [h2, Res.bind_ok]
    dsimp only
    rw [hin, hopen, Res.bind_ok]

/-- the run of gdxdump for a file of the library -/
theorem own_run {w : World} {z : Cz} {dtoa : Dbl → Digits} {file : Str} {args : List Str} {l : List (Key × Str)} (ha : ¬ SameNoCase file (str "AUDIT"))
    (hm : Means args l false) (hlen : ∀ a ∈ args, a.length ≤ 254) (hp : DumpOpts.Plain l) (hbad : ¬ Bad l false) (hcon : ¬ Conflict l) (hver : ¬ DumpOpts.Given l .version) {n : Str}
    (hn : InName (fun n => (w.disk n).isSome) file n) {f : List UInt8} (hd : w.disk n = some f) (hw : ∀ v, (Key.output, v) ∈ l → w.canWrite v = true ∧ v ≠ n) {a : Gx}
    (hop : openRead z Gx.new (.content f) = .ok (a, (true, 0))) :
    ∃ r, Takes (fun n => (w.disk n).isSome) file l r ∧ r.input = n ∧ r.opt.dtoa = dtoa ∧ ∀ fuel p t c, front r a = .ok p → body r z fuel a = .ok (t, c) →
      ∃ res, gdxdump w z fuel dtoa (file :: args) = .ok res ∧ res.code = c ∧ OutputIs l (p ++ t) res := by
  obtain ⟨r, ht, hin, hdt, hst⟩ := own_start (dtoa := dtoa) ha hm hlen hp hbad hcon hver hn hd hop
  refine ⟨r, ht, hin, hdt, fun fuel p t c hfr hb => ?_⟩
  have hdump : dump w z fuel r a = .ok { code := c, std := (if r.out = [] then p ++ t else []) ++ ideLine r, file := if r.out = [] then none else some (r.out, p ++ t) } := by
    have ho : r.out = [] ∨ w.canWrite r.out = true ∧ r.out ≠ n := by
      rcases ht.out with ⟨_, ho⟩ | ho
      · exact Or.inl ho
      · exact Or.inr (hw _ ho)
    unfold dump
    rw [if_neg (by
      rintro ⟨c1, c2⟩
      rcases ho with ho | ho
      · exact c1 ho
      · rw [ho.1] at c2; cases c2), if_neg (by
      rintro ⟨c1, c2, _⟩
      rcases ho with ho | ho
      · exact c1 ho
      · exact ho.2 (by rw [c2, hin])), hfr, Res.bind_ok, hb, Res.bind_ok]
    rfl
  refine ⟨{ code := c, std := (if r.out = [] then p ++ t else []) ++ ideLine r, file := if r.out = [] then none else some (r.out, p ++ t) }, ?_, rfl, ?_⟩
  · rw [hst]
    exact hdump
  · rcases ht.out with ⟨ho1, ho⟩ | ho
    · left
      simp [ho, ho1, ideLine]
    · right
      have hne : r.out ≠ [] := by
        intro hc
        rw [hc] at ho
        exact hbad (.value ho (.empty (by decide)))
      refine ⟨r.out, ho, by simp [hne], ?_⟩
      dsimp only
      rw [if_neg hne, List.nil_append]
      by_cases hi : r.ide = true
      · right
        obtain ⟨v, hv, _⟩ := ht.ide.mp hi
        exact ⟨v, given_last hv⟩
      · left
        simp [ideLine, hi]

theorem all_body {r : Run} (h1 : r.fmt = .normal) (h2 : r.act = .all) (h3 : r.uels = []) {z : Cz} {fuel : Nat} {a g' : Gx} {t : Str} (h : dumpAll r.opt z fuel r.input a = .ok (g', t)) :
    ∃ p q, front r a = .ok p ∧ body r z fuel a = .ok (q, 0) ∧ p ++ q = t := by
  unfold dumpAll at h
  obtain ⟨acr, k1, h⟩ := Res.bind_eq_ok.mp h
  obtain ⟨⟨g1, t1⟩, k2, h⟩ := Res.bind_eq_ok.mp h
  dsimp only at h
  rw [Res.pure_eq] at h
  injection h with h
  injection h with _ h
  refine ⟨(if r.opt.data = true then [] else sGdxIn ++ r.input ++ [10]) ++ acr ++ [], sOnEmpty ++ (if r.opt.data = true then [] else sEolCom) ++ t1 ++ sOffEmpty ++ [], ?_, ?_, ?_⟩
  · unfold front
    rw [h1, if_neg (by simp), k1, Res.bind_ok]
    dsimp only
    rw [if_pos (Or.inl h3), Res.bind_ok]
    rfl
  · unfold body
    rw [h2]
    dsimp only
    unfold allOf listing
    rw [h1]
    dsimp only
    rw [k2]
    simp [Res.bind_ok, Res.pure_eq]
  · rw [← h]
    simp

/-- C84 for files of the library without acronyms, with C80: gdxdump with any options that do not select a symbol, another format or a list (texts for special values must be words) ends with exit
    code 0, and what it writes, to the output file if there is one, is a program with one statement for every symbol. What is missing: as in C79 and C80; the output file is not the input file. -/
theorem C84_program_partial {w : World} {dtoa : Dbl → Digits} {file : Str} {args : List Str} {l : List (Key × Str)} (ha : ¬ SameNoCase file (str "AUDIT"))
    (hm : Means args l false) (hlen : ∀ a ∈ args, a.length ≤ 254) (hp : DumpOpts.Plain l) (hbad : ¬ Bad l false) (hsp : ∀ k ∈ special ++ [.symb, .noData], ¬ DumpOpts.Given l k)
    (hwd : ∀ k ∈ [Key.eps, .na, .pinf, .minf, .undf, .zero], ∀ v, (k, v) ∈ l → ValWord v) {n : Str} (hn : InName (fun n => (w.disk n).isSome) file n)
    {f : List UInt8} (hd : w.disk n = some f) (hw : ∀ v, (Key.output, v) ∈ l → w.canWrite v = true ∧ v ≠ n)
    {e : Env} {z : Cz} (hz : z.Good) {g : Gx} {syms : List Sym} {R : Nat → List RawEntry} (h : OwnFile e z g syms R f) (hacr : g.acros = some [])
    (htx : ∀ l, g.texts = some l → ∀ p ∈ l, p.1.head? = some 39 ∨ p.1.head? = some 34 ∨ p.1.head? = some 46 → ∃ c ∈ p.1, c = 32 ∨ c = 44 ∨ c = 59 ∨ c = 47 ∨ c = 36 ∨ c = 61 ∨ c = 42)
    (hsy : ∀ (n : Nat) (s : Sym), syms[n]? = some s → (s.typ ≤ 3 ∧ (∃ cs : List Str, s.comments = cs.map some ∧ ∀ c ∈ cs, (10 : UInt8) ∉ c) ∧ (s.dim = 0 → s.typ ≠ 0 ∧ s.comments = [])) ∨
      (s.typ = dtAlias ∧ s.dim ≠ 0 ∧ s.dataCount = 0)) :
    ∃ a, ∃ outs : Nat → List (RecOut Int), ∃ r, openRead z Gx.new (.content f) = .ok (a, (true, 0)) ∧ a.uel.map Uel.strs = g.uel.map Uel.strs ∧
      Takes (fun n => (w.disk n).isSome) file l r ∧
      (∀ (n : Nat) (s : Sym), syms[n]? = some s → s.typ ≤ 3 → Delivered SVTab.default (acrOf a) (contentOf syms R ((n : Int) + 1)).1 (contentOf syms R ((n : Int) + 1)).2 (outs n)) ∧
      ((∀ (n : Nat) (s : Sym), syms[n]? = some s → s.typ ≤ 3 → (∀ r ∈ outs n, ∀ v ∈ r.vals, ∃ q, v.fv = .fin q ∧ (q ≠ 0 → Nearest15 (dtoa v) q)) ∧
          (s.typ = 0 → ∀ r ∈ outs n, ∀ v ∈ r.vals, Diff.roundInt v ≠ .ub)) →
       ∀ fuel, (∀ (n : Nat) (s : Sym), syms[n]? = some s → s.typ ≤ 3 → (outs n).length < fuel ∧ s.comments.length < fuel) →
        ∃ res t sts, gdxdump w z fuel dtoa (file :: args) = .ok res ∧ res.code = 0 ∧ OutputIs l t res ∧ program t = some sts ∧ sts.length = syms.length ∧
          ∀ (n : Nat) (s : Sym), syms[n]? = some s → ∃ st, sts[n]? = some st ∧ StmtOf r.opt a s (outs n) st) := by
  have hsp' : ∀ k ∈ special, ¬ DumpOpts.Given l k := fun k hk => hsp k (by simp [hk])
  obtain ⟨a0, _, hop, _⟩ := h.content hz
  obtain ⟨r, ht, hin, hdt, hrun⟩ := own_run ha hm hlen hp hbad (no_conflict hsp') (hsp' _ (by decide)) hn hd hw hop
  obtain ⟨t1, t2, t3, t4, t5, _⟩ := takes_plain ht hsp'
  obtain ⟨t6, t7⟩ := t5 (hsp _ (by decide))
  have hdata : r.opt.data = true := by
    cases hh : r.opt.data with
    | true => rfl
    | false => exact absurd (ht.data.mp hh).1 (hsp _ (by decide))
  have hval : ∀ k ∈ [Key.eps, .na, .pinf, .minf, .undf, .zero], ∀ o t, TextOf l k o → o = some t → ValWord t := by
    intro k hk o t hto ho
    rcases hto with ⟨_, rfl⟩ | ⟨v, hv, rfl⟩
    · cases ho
    · injection ho with ho
      subst ho
      exact hwd k hk v (given_last hv)
  have ho : GOptOk r.opt := by
    refine ⟨t2, t3, t7, hdata, ?_, fun t hz' => hval .zero (by decide) _ t ht.zero hz'⟩
    intro t hu
    rcases hu with hu | hu | hu | hu | hu
    · exact hval .undf (by decide) _ t ht.undf hu
    · exact hval .na (by decide) _ t ht.na hu
    · exact hval .pinf (by decide) _ t ht.pinf hu
    · exact hval .minf (by decide) _ t ht.minf hu
    · exact hval .eps (by decide) _ t ht.eps hu
  obtain ⟨a, outs, b1, b2, b3, b4⟩ := C80_own_partial ho hz h hacr htx hsy
  rw [hop] at b1
  cases b1
  refine ⟨a0, outs, r, hop, b2, ht, b3, fun hv fuel hf => ?_⟩
  rw [hdt] at b4
  obtain ⟨g', t, sts, c1, c2, c3, c4⟩ := b4 hv fuel hf r.input
  obtain ⟨p, q, d1, d2, d3⟩ := all_body t1 t6 t4 c1
  obtain ⟨res, e1, e2, e3⟩ := hrun fuel p q 0 d1 d2
  rw [d3] at e3
  exact ⟨res, t, sts, e1, e2, e3, c2, c3, c4⟩

/-- C84 with NoData, with C83: the program that is written names the input file as gdxdump found it. -/
theorem C84_load_partial {w : World} {dtoa : Dbl → Digits} {file : Str} {args : List Str} {l : List (Key × Str)} (ha : ¬ SameNoCase file (str "AUDIT"))
    (hm : Means args l false) (hlen : ∀ a ∈ args, a.length ≤ 254) (hp : DumpOpts.Plain l) (hbad : ¬ Bad l false) (hsp : ∀ k ∈ special ++ [.symb], ¬ DumpOpts.Given l k) (hno : DumpOpts.Given l .noData)
    {n : Str} (hn : InName (fun n => (w.disk n).isSome) file n) (h32 : (32 : UInt8) ∉ n) (h10 : (10 : UInt8) ∉ n) (h0 : n ≠ [])
    {f : List UInt8} (hd : w.disk n = some f) (hw : ∀ v, (Key.output, v) ∈ l → w.canWrite v = true ∧ v ≠ n)
    {e : Env} {z : Cz} (hz : z.Good) {g : Gx} {syms : List Sym} {R : Nat → List RawEntry} (h : OwnFile e z g syms R f) (hacr : g.acros = some [])
    (hsy : ∀ s ∈ syms, (s.typ ≤ 3 ∨ s.typ = dtAlias) ∧ s.comments = [] ∧ ∀ a b, s.expl ≠ a ++ 33 :: 33 :: b) :
    ∃ a, openRead z Gx.new (.content f) = .ok (a, (true, 0)) ∧ ∀ fuel, 0 < fuel →
      ∃ res t ls, gdxdump w z fuel dtoa (file :: args) = .ok res ∧ res.code = 0 ∧ OutputIs l t res ∧ loadProgram t = some (.gdxIn n :: ls.flatten) ∧ List.Forall₂ (LoadsOf a) syms ls := by
  have hsp' : ∀ k ∈ special, ¬ DumpOpts.Given l k := fun k hk => hsp k (by simp [hk])
  obtain ⟨a0, _, hop, _⟩ := h.content hz
  obtain ⟨r, ht, hin, hdt, hrun⟩ := own_run (dtoa := dtoa) ha hm hlen hp hbad (no_conflict hsp') (hsp' _ (by decide)) hn hd hw hop
  obtain ⟨t1, t2, t3, t4, t5, _⟩ := takes_plain ht hsp'
  obtain ⟨t6, t7⟩ := t5 (hsp _ (by decide))
  have hdata : r.opt.data = false := ht.data.mpr ⟨hno, t1⟩
  obtain ⟨a, b1, b4⟩ := C83_own_partial t7 hdata hz h hacr hsy h0 h32 h10
  rw [hop] at b1
  cases b1
  refine ⟨a0, hop, fun fuel hf => ?_⟩
  obtain ⟨t, ls, c1, c2, c3⟩ := b4 fuel hf
  rw [← hin] at c1
  obtain ⟨p, q, d1, d2, d3⟩ := all_body t1 t6 t4 c1
  obtain ⟨res, e1, e2, e3⟩ := hrun fuel p q 0 d1 d2
  rw [d3] at e3
  exact ⟨res, t, ls, e1, e2, e3, c2, c3⟩

theorem symIndex_reopened (l : List Sym) (s : Str) : symIndex (l.map Sym.reopened) s = symIndex l s := by
  unfold symIndex
  rw [List.map_map]
  rfl

theorem not_star {n : Str} (hg : isGoodIdent n = true) {x : Str} (h : SameNoCase n x) : x ≠ star := by
  rintro rfl
  have hl := congrArg List.length h
  match n, hl with
  | [c], _ =>
    have h1 : lower c = 42 := by
      unfold SameNoCase star at h
      injection h
    have h2 : c = 42 := by
      unfold lower at h1
      split at h1
      · rename_i hc
        exfalso
        have e : c.toNat + 32 = 42 ∨ 90 < c.toNat := by
          have := congrArg UInt8.toNat h1
          rw [UInt8.toNat_add] at this
          have h9 := UInt8.le_iff_toNat_le.mp hc.2
          change c.toNat ≤ 90 at h9
          change (c.toNat + 32) % 256 = 42 at this
          omega
        have h8 := UInt8.le_iff_toNat_le.mp hc.1
        have h9 := UInt8.le_iff_toNat_le.mp hc.2
        change 65 ≤ c.toNat at h8
        change c.toNat ≤ 90 at h9
        omega
      · exact h1
    rw [h2] at hg
    exact absurd hg (by decide +kernel)

/-- an option that can be given once has one value -/
theorem once_unique {l : List (Key × Str)} {u : Bool} (hbad : ¬ Bad l u) {k : Key} (hk : k ∈ once) {v w : Str} (hv : (k, v) ∈ l) (hw : (k, w) ∈ l) : v = w := by
  by_contra hne
  obtain ⟨i, hi⟩ := List.getElem?_of_mem hw
  obtain ⟨j, hj⟩ := List.getElem?_of_mem hv
  have hij : i ≠ j := by
    rintro rfl
    rw [hi] at hj
    injection hj with hj
    injection hj with _ hj
    exact hne hj.symm
  have cut : ∀ {i j : Nat} {u v : Key × Str}, l[i]? = some u → l[j]? = some v → i < j → ∃ a b c, l = a ++ u :: b ++ v :: c := by
    intro i j u v hi hj hlt
    obtain ⟨hi1, hi2⟩ := List.getElem?_eq_some_iff.mp hi
    obtain ⟨hj1, hj2⟩ := List.getElem?_eq_some_iff.mp hj
    refine ⟨l.take i, (l.take j).drop (i + 1), l.drop (j + 1), ?_⟩
    have e1 : l = l.take j ++ v :: l.drop (j + 1) := by
      rw [← hj2, List.cons_getElem_drop_succ, List.take_append_drop]
    have e2 : l.take j = l.take i ++ u :: (l.take j).drop (i + 1) := by
      have hlt' : i < (l.take j).length := by rw [List.length_take]; omega
      have hu : u = (l.take j)[i] := by rw [List.getElem_take, hi2]
      rw [hu, List.cons_getElem_drop_succ]
      have : l.take i = (l.take j).take i := by rw [List.take_take, Nat.min_eq_left (by omega)]
      rw [this, List.take_append_drop]
    rw [← e2]
    exact e1
  rcases Nat.lt_or_gt_of_ne hij with hlt | hlt
  · obtain ⟨a, b, c, e⟩ := cut hi hj hlt
    exact hbad (.twice hk e)
  · obtain ⟨a, b, c, e⟩ := cut hj hi hlt
    exact hbad (.twice hk e)

/-- a file without acronyms -/
theorem own_acronyms {e : Env} {z : Cz} (hz : z.Good) {g : Gx} {syms : List Sym} {R : Nat → List RawEntry} {f : List UInt8} (h : OwnFile e z g syms R f) (hacr : g.acros = some []) {a0 : Gx}
    (hop : openRead z Gx.new (.content f) = .ok (a0, (true, 0))) : writeAcronyms a0 = .ok [] := by
  obtain ⟨g', k, hc, hf⟩ := h.close
  subst hf
  have fi := h.hist.fine hz
  obtain ⟨a, h1, h2, _⟩ := close_open hz fi.inv h.mode (fi.stat h.mode) hc h.fits h.len Gx.new rfl 0
  have h1 : openRead z Gx.new (.content g'.file) = .ok (a, (true, 0)) := h1
  rw [hop] at h1
  cases h1
  obtain ⟨la, k1, k2⟩ := h2.acros
  rw [hacr] at k1
  cases k1
  unfold writeAcronyms acronymCount
  rw [if_pos (by rw [k2]; simp)]

/-- the symbol of this name -/
theorem own_find {e : Env} {z : Cz} (hz : z.Good) {g : Gx} {syms : List Sym} {R : Nat → List RawEntry} {f : List UInt8} (h : OwnFile e z g syms R f) {a0 : Gx}
    (hnm : a0.names = some (syms.map Sym.reopened)) {n : Nat} {s : Sym} (hs : syms[n]? = some s) {x : Str} (hsx : SameNoCase s.name x) : findSymbol a0 x = (true, (n : Int) + 1) := by
  have fi := h.hist.fine hz
  have hok := fi.inv.tab.syms syms h.full.names
  unfold findSymbol
  rw [if_neg (not_star (hok.each n s hs).good hsx), hnm]
  dsimp only
  rw [symIndex_reopened, symIndex_at hok hs hsx]
  simp

theorem own_missing {syms : List Sym} {a0 : Gx} (hnm : a0.names = some (syms.map Sym.reopened)) {x : Str} (hst : x ≠ [42]) (hno : ∀ s ∈ syms, ¬ SameNoCase s.name x) :
    (findSymbol a0 x).1 = false := by
  rw [find_missing]
  refine ⟨hst, fun ss he t hts => ?_⟩
  rw [hnm] at he
  injection he with he
  subst he
  obtain ⟨s, hs, rfl⟩ := List.mem_map.mp hts
  exact hno s hs

/-- C84 with Symb, with C70: gdxdump writes the declaration of the symbol of this name (upper and lower case are the same), or that there is none, and then ends with exit code 6. What is missing:
    as in C79 and C70; files without acronyms only. -/
theorem C84_symb_partial {w : World} {dtoa : Dbl → Digits} {file : Str} {args : List Str} {l : List (Key × Str)} (ha : ¬ SameNoCase file (str "AUDIT"))
    (hm : Means args l false) (hlen : ∀ a ∈ args, a.length ≤ 254) (hp : DumpOpts.Plain l) (hbad : ¬ Bad l false) (hsp : ∀ k ∈ special ++ [.noData, .noHeader], ¬ DumpOpts.Given l k)
    (hwd : ∀ k ∈ [Key.eps, .na, .pinf, .minf, .undf, .zero], ∀ v, (k, v) ∈ l → ValWord v) {x : Str} (hx : (Key.symb, x) ∈ l) {m : Str} (hn : InName (fun n => (w.disk n).isSome) file m)
    {f : List UInt8} (hd : w.disk m = some f) (hw : ∀ v, (Key.output, v) ∈ l → w.canWrite v = true ∧ v ≠ m)
    {e : Env} {z : Cz} (hz : z.Good) {g : Gx} {syms : List Sym} {R : Nat → List RawEntry} (h : OwnFile e z g syms R f) (hacr : g.acros = some [])
    (htx : ∀ l, g.texts = some l → ∀ p ∈ l, p.1.head? = some 39 ∨ p.1.head? = some 34 ∨ p.1.head? = some 46 → ∃ c ∈ p.1, c = 32 ∨ c = 44 ∨ c = 59 ∨ c = 47 ∨ c = 36 ∨ c = 61 ∨ c = 42) :
    ∃ a r, openRead z Gx.new (.content f) = .ok (a, (true, 0)) ∧ a.uel.map Uel.strs = g.uel.map Uel.strs ∧ Takes (fun n => (w.disk n).isSome) file l r ∧
      (x ≠ [42] → (∀ s ∈ syms, ¬ SameNoCase s.name x) → ∀ fuel, ∃ res, gdxdump w z fuel dtoa (file :: args) = .ok res ∧ res.code = 6 ∧ OutputIs l (notFound x) res) ∧
      ∀ (n : Nat) (s : Sym), syms[n]? = some s → SameNoCase s.name x → s.typ ≤ 3 → ∀ cs : List Str, s.comments = cs.map some → (∀ c ∈ cs, (10 : UInt8) ∉ c) →
        (s.dim = 0 → s.typ ≠ 0 ∧ cs = []) → ∃ outs : List (RecOut Int),
        Delivered SVTab.default (acrOf a) (contentOf syms R ((n : Int) + 1)).1 (contentOf syms R ((n : Int) + 1)).2 outs ∧
        ((∀ r ∈ outs, ∀ v ∈ r.vals, ∃ q, v.fv = .fin q ∧ (q ≠ 0 → Nearest15 (dtoa v) q)) → (s.typ = 0 → ∀ r ∈ outs, ∀ v ∈ r.vals, Diff.roundInt v ≠ .ub) →
         ∀ fuel, outs.length < fuel → cs.length < fuel → ∃ ess res t D, List.Forall₂ (EntriesOf r.opt a s.typ s.dim s.userInfo) outs ess ∧
          gdxdump w z fuel dtoa (file :: args) = .ok res ∧ res.code = 0 ∧ OutputIs l t res ∧
          decl (uncomment true false t) = some (D, [10]) ∧ D.kind = kindOf s.typ s.dim s.userInfo ∧ D.name = s.name ∧
          List.Forall₂ (DomNamed a) (s.domSyms.getD (List.replicate s.dim.toNat 0)) D.doms ∧ (∃ i j, s.expl = List.replicate i 32 ++ D.text ++ List.replicate j 32) ∧
          D.data = ess.flatten) := by
  have hsp' : ∀ k ∈ special, ¬ DumpOpts.Given l k := fun k hk => hsp k (by simp [hk])
  obtain ⟨a0, _, hop, _, hnm, hue⟩ := h.content hz
  obtain ⟨r, ht, hin, hdt, hrun⟩ := own_run (dtoa := dtoa) ha hm hlen hp hbad (no_conflict hsp') (hsp' _ (by decide)) hn hd hw hop
  obtain ⟨t1, t2, t3, t4, _, t5⟩ := takes_plain ht hsp'
  obtain ⟨x', hx', t6⟩ := t5 ⟨x, hx⟩
  have hxx : x' = x := once_unique hbad (by decide) hx' hx
  subst hxx
  have hdata : r.opt.data = true := by
    cases hh : r.opt.data with
    | true => rfl
    | false => exact absurd (ht.data.mp hh).1 (hsp _ (by decide))
  have hhdr : r.opt.showHdr = true := by
    cases hh : r.opt.showHdr with
    | true => rfl
    | false =>
      rcases ht.showHdr.mp hh with p | p
      · rw [t1] at p; cases p
      · exact absurd p.1 (hsp _ (by decide))
  have hval : ∀ k ∈ [Key.eps, .na, .pinf, .minf, .undf, .zero], ∀ o t, TextOf l k o → o = some t → ValWord t := by
    intro k hk o t hto ho
    rcases hto with ⟨_, rfl⟩ | ⟨v, hv, rfl⟩
    · cases ho
    · injection ho with ho
      subst ho
      exact hwd k hk v (given_last hv)
  have ho : GOptOk r.opt := by
    refine ⟨t2, t3, hhdr, hdata, ?_, fun t hz' => hval .zero (by decide) _ t ht.zero hz'⟩
    intro t hu
    rcases hu with hu | hu | hu | hu | hu
    · exact hval .undf (by decide) _ t ht.undf hu
    · exact hval .na (by decide) _ t ht.na hu
    · exact hval .pinf (by decide) _ t ht.pinf hu
    · exact hval .minf (by decide) _ t ht.minf hu
    · exact hval .eps (by decide) _ t ht.eps hu
  have hac := own_acronyms hz h hacr hop
  have hfr : front r a0 = .ok [] := by
    unfold front
    rw [t1, if_neg (by simp), hac, Res.bind_ok]
    dsimp only
    rw [if_pos (Or.inl t4), Res.bind_ok]
    simp [hdata, Res.pure_eq]
  refine ⟨a0, r, hop, hue, ht, ?_, ?_⟩
  · intro hst hno fuel
    have hmiss := own_missing hnm hst hno
    have hb : body r z fuel a0 = .ok (notFound x', 6) := by
      unfold body
      rw [t6]
      dsimp only
      unfold oneSymbol listing
      rw [t1]
      simp [hmiss, Res.bind_ok, Res.pure_eq]
    exact hrun fuel [] _ _ hfr hb
  · intro n s hs hsx hty cs hcs hln h0
    have hfind := own_find hz h hnm hs hsx
    obtain ⟨a, outs, b1, _, b2, b3⟩ := C70_own ho hz h (by
      intro l hl x hx
      rw [hacr] at hl
      cases hl
      cases hx) htx hs hty hcs hln h0
    rw [hop] at b1
    cases b1
    refine ⟨outs, b2, fun hv hset fuel hf1 hf2 => ?_⟩
    rw [hdt] at b3
    obtain ⟨ess, g', t, D, c1, c2, c3⟩ := b3 hv hset fuel hf1 hf2
    have hb : body r z fuel a0 = .ok (t, 0) := by
      unfold body
      rw [t6]
      dsimp only
      unfold oneSymbol listing
      rw [t1, hfind]
      dsimp only
      rw [if_neg (by simp), c2]
      simp [Res.bind_ok, Res.pure_eq, hhdr]
    obtain ⟨res, e1, e2, e3⟩ := hrun fuel [] t 0 hfr hb
    exact ⟨ess, res, t, D, c1, e1, e2, e3, c3⟩

/-- a number in groups of three digits, at least four wide -/
def Nice4 (n : Int) (s : Str) : Prop := ∃ t, IntText.IsIntStr t n ∧ ∃ k : Nat, s = List.replicate k 32 ++ IntText.thousands t ∧ k = 4 - (IntText.thousands t).length

theorem nice4 {n : Int} (h0 : 0 ≤ n) (h : I64 n) : ∃ s, IntText.niceStr n 4 = .ok s ∧ Nice4 n s := by
  obtain ⟨t, s, h1, h2, k, h3, h4⟩ := IntText.C78_nice 4 h
  rw [if_neg (by omega)] at h3 h4
  exact ⟨s, h2, t, h1, k, h3, by omega⟩

def versionLines (fs prod c p q : Str) : Str :=
  str "*  File version   : " ++ fs ++ [10] ++ str "*  Producer       : " ++ prod ++ [10] ++ str "*  File format    :    7" ++ [10] ++
    str "*  Compression    : " ++ c ++ [10] ++ str "*  Symbols        : " ++ p ++ [10] ++ str "*  Unique Elements: " ++ q ++ [10]

/-- C84 with -V: the version of the library that wrote the file, the program that did, the format, whether the file is compressed, and the numbers of symbols and elements. -/
theorem C84_version {w : World} {dtoa : Dbl → Digits} {file : Str} {args : List Str} {l : List (Key × Str)} (ha : ¬ SameNoCase file (str "AUDIT"))
    (hm : Means args l false) (hlen : ∀ a ∈ args, a.length ≤ 254) (hp : DumpOpts.Plain l) (hbad : ¬ Bad l false) (hcon : ¬ Conflict l) (hver : DumpOpts.Given l .version)
    {m : Str} (hn : InName (fun n => (w.disk n).isSome) file m) {f : List UInt8} (hd : w.disk m = some f)
    {e : Env} {z : Cz} (hz : z.Good) {g : Gx} {syms : List Sym} {R : Nat → List RawEntry} (h : OwnFile e z g syms R f) {u : Uel} (hu : g.uel = some u) (fuel : Nat) :
    ∃ c p q : Str, Nice4 g.comprLev c ∧ Nice4 syms.length p ∧ Nice4 u.ents.length q ∧ 
      gdxdump w z fuel dtoa (file :: args) = .ok { code := 0, std := versionLines g.fsId g.producer c p q } := by
  rcases C79_options_partial (fun n => (w.disk n).isSome) dtoa ha hm hlen hp with ⟨h1, _⟩ | ⟨_, h1, _⟩ | ⟨_, _, m', h3, h4, _⟩ | ⟨_, _, m', h3, h4, h2⟩
  · exact absurd h1 hbad
  · exact absurd h1 hcon
  all_goals
    have hmm : m' = m := by
      rcases hn with ⟨a1, a2⟩ | ⟨a1, a2⟩ <;> rcases h3 with ⟨b1, b2⟩ | ⟨b1, b2⟩
      · rw [a2, b2]
      · exact absurd a1 b1
      · exact absurd b1 a1
      · rw [a2, b2]
    subst hmm
  · exfalso
    rw [hd] at h4
    cases h4
  · rcases h2 with ⟨_, h2⟩ | ⟨h2, _⟩
    swap
    · exact absurd hver h2
    obtain ⟨g', k, hc, hf⟩ := h.close
    subst hf
    have fi := h.hist.fine hz
    obtain ⟨a, h1, hr, _⟩ := close_open hz fi.inv h.mode (fi.stat h.mode) hc h.fits h.len Gx.new rfl 0
    have hop : openRead z Gx.new (.content g'.file) = .ok (a, (true, 0)) := h1
    have hopen : opened w z m' = .ok (.ok a) := by
      unfold opened
      rw [hd]
      dsimp only
      rw [hop, Res.bind_ok]
      dsimp only
      rw [if_neg (by simp), if_neg (by unfold getLastError; simp [open_clean hop])]
      rfl
    obtain ⟨⟨e', c', p', h', t0, hh, hc01, hco, hlev, _⟩, _⟩ := fi.inv.head (fi.stat h.mode)
    obtain ⟨ls, n1, n2⟩ := hr.names
    rw [h.full.names] at n1
    cases n1
    obtain ⟨u', u1, u2, _⟩ := hr.uel
    rw [hu] at u1
    cases u1
    have f1 := (h.fits.syms syms h.full.names).1
    have f2 := h.fits.uels u hu
    obtain ⟨c, c1, c2⟩ := nice4 (n := g.comprLev) (by omega) ⟨by omega, by omega⟩
    obtain ⟨p, p1, p2⟩ := nice4 (n := (syms.length : Int)) (by omega) ⟨by omega, by omega⟩
    obtain ⟨q, q1, q2⟩ := nice4 (n := (u.ents.length : Int)) (by omega) ⟨by omega, by omega⟩
    refine ⟨c, p, q, c2, p2, q2, ?_⟩
    unfold gdxdump
    rw [h2, Res.bind_ok]
    dsimp only
    rw [hopen, Res.bind_ok]
    dsimp only
    have hs1 : (systemInfo a).1 = syms.length := by unfold systemInfo; rw [n2]; simp
    have hs2 : (systemInfo a).2 = u.ents.length := by unfold systemInfo; rw [u2]; simp [Uel.size, Uel.strs]
    have hf1 : (fileInfo a).1 = 7 := by unfold fileInfo; rw [hr.stat]; exact hr.ver
    have hf2 : (fileInfo a).2 = g.comprLev := by unfold fileInfo; rw [hr.stat]; exact hr.lev
    have h7 : IntText.niceStr 7 4 = .ok (str "   7") := by decide +kernel
    unfold versionText
    rw [hs1, hs2, hf1, hf2, h7, Res.bind_ok, c1, Res.bind_ok, p1, Res.bind_ok, q1, Res.bind_ok, hr.fs, hr.prod]
    have : str "*  File format    : " ++ str "   7" = str "*  File format    :    7" := by decide +kernel
    unfold versionLines
    rw [← this]
    simp [Res.bind_ok, Res.pure_eq]

/-! ## examples -/

/-- a file `a.gdx` of these calls, the same with one byte changed as `e.gdx`; every file but those in the directory `no` can be written -/
def exWorld (f : List UInt8) : World :=
  { disk := fun n => if n = str "a.gdx" then some f else if n = str "e.gdx" then some (f.set 17 0) else none, canWrite := fun n => n.take 3 != str "no/", audit := str "A", usage := str "U" }

def runOf (cs : List Call) (args : List String) : Res Result := do
  let f ← fileOf cs
  gdxdump (exWorld f) Cz.id 20 exGOpt.dtoa (args.map str)

/-- exit codes -/
example : runOf exGams [] = .ok { code := 1, std := str "U" } ∧ runOf exGams ["audit"] = .ok { code := 0, std := str "A" } ∧ runOf exGams ["a", "Symb="] = .ok { code := 1, std := str "U" } ∧
    runOf exGams ["a", "Format=csv"] = .ok { code := 1 } ∧ runOf exGams ["b"] = .ok { code := 2 } ∧ runOf exGams ["e"] = .ok { code := 4 } ∧
    runOf exGams ["a", "Symb=i", "Output=no/x"] = .ok { code := 6 } ∧ runOf exGams ["a", "Symb=zz"] = .ok { code := 6, std := str "Symbol not found: zz\n" } ∧
    runOf exGams ["a", "Symb=zz", "Output=x.txt"] = .ok { code := 6, file := some (str "x.txt", str "Symbol not found: zz\n") } := by decide +kernel

/-- one symbol, as a declaration and as CSV -/
example : runOf exGams ["a", "Symb=S"] = .ok { code := 0, std := str "\nScalar s '(one)' / 0 /;\n" } ∧
    runOf exGams ["a", "Symb=I", "Format=csv", "Output", "x.csv", "IDE=Y"] =
      .ok { code := 0, std := str "GDXDump file written: x.csv[FIL:\"x.csv\",0,0]\n", file := some (str "x.csv", str "\"Dim1\"\n\"a b\"\n\"c'd\"\n") } := by decide +kernel

/-- all symbols -/
example : (do
    let r ← runOf exDumpAll ["a.gdx", "EpsOut=Eps"]
    pure (r.code, (program r.std).map List.length)) = .ok (0, some 6) := by decide +kernel

example : (do
    let r ← runOf exLoad ["a.gdx", "NoData"]
    pure (r.code, (loadProgram r.std).map List.head?)) = .ok (0, some (some (.gdxIn (str "a.gdx")))) := by decide +kernel

example : runOf exGams ["a.gdx", "-v"] = .ok { code := 0, std := versionLines (str "GDX Library C++ V7 (AUDIT) ") [65] (str "   0") (str "   4") (str "   3") } := by decide +kernel

/-- The output file may be the input file: with an option that reads no records the file is then replaced by the table, without a message. -/
theorem C84_clobber : (do
    let f ← fileOf exGams
    let r ← gdxdump (exWorld f) Cz.id 20 exGOpt.dtoa (["a.gdx", "Symbols", "Output=a.gdx"].map str)
    pure (r.code, r.file.map Prod.fst, r.file.map fun (x : Str × Str) => x.2.take 12)) = .ok (0, some (str "a.gdx"), some (str "  Symbol Dim")) := by decide +kernel

/-- The elements with Format=csv: the quotes are those of GAMS, so an element with a comma is no field of a CSV file. The symbol that must be given is not used. -/
theorem C84_uels : runOf [.openWrite false 0 [65] 0, .strStart [105] [] 1 0 0, .writeStr [str "a,b"] [0], .writeStr [str "c"] [0], .writeDone] ["a", "UelTable=u", "Format=csv", "Symb=none"] =
    .ok { code := 0, std := str "  'a,b'\n  'c'\n" } := by decide +kernel

/-- A list starts with the declarations of the acronyms, if there are some, and these begin with an empty one. -/
theorem C84_list_acronyms : (do
    let r ← runOf [.openWrite false 0 [65] 0, .acronymAdd [120] [] 1] ["a", "Symbols"]
    pure (r.code, r.std.take 12)) = .ok (0, str "\nAcronym ;\n ") := by decide +kernel

#print axioms C84_exit_partial
#print axioms C84_program_partial
#print axioms C84_load_partial
#print axioms C84_symb_partial
#print axioms C84_version
#print axioms C84_clobber
#print axioms C84_uels
#print axioms C84_list_acronyms

end Gdx.Props
