import Verif.Proofs.DumpOpts
import Verif.Props.DiffOpts

/-!
C79: the options of gdxdump.
-/

namespace Gdx.DumpOpts
open Gdx.CmdPar Gdx.CmdLine Gdx.Spec
open Gdx.DiffOpts (str short uEqual uEqual_iff InName checkFile checkFile_name)
open Gdx.Dump (DFmt)

theorem same_iff {v : Text} {a : Str} {b : Str} (h : upper a = b) : SameNoCase v a ↔ upper v = b := by
  rw [← upper_iff, h]

theorem delimName_iff (v : Text) (c : UInt8) : DelimName v c ↔ (upper v = str "PERIOD" ∧ c = 46) ∨ (upper v = str "COMMA" ∧ c = 44) ∨ (upper v = str "TAB" ∧ c = 9) ∨
    (upper v = str "BLANK" ∧ c = 32) ∨ (upper v = str "SEMICOLON" ∧ c = 59) := by
  unfold DelimName
  rw [same_iff (v := v) (a := str "period") (b := str "PERIOD") (by decide), same_iff (v := v) (a := str "comma") (b := str "COMMA") (by decide),
    same_iff (v := v) (a := str "tab") (b := str "TAB") (by decide), same_iff (v := v) (a := str "blank") (b := str "BLANK") (by decide),
    same_iff (v := v) (a := str "semicolon") (b := str "SEMICOLON") (by decide)]

theorem sepName_iff (v : Text) (c : UInt8) : SepName v c ↔ (upper v = str "PERIOD" ∧ c = 46) ∨ (upper v = str "COMMA" ∧ c = 44) := by
  unfold SepName
  rw [same_iff (v := v) (a := str "period") (b := str "PERIOD") (by decide), same_iff (v := v) (a := str "comma") (b := str "COMMA") (by decide)]

theorem fmtName_iff (v : Text) (f : OFmt) : FmtName v f ↔ (upper v = str "NORMAL" ∧ f = .normal) ∨ (upper v = str "GAMSBAS" ∧ f = .gamsbas) ∨ (upper v = str "CSV" ∧ f = .csv) := by
  unfold FmtName
  rw [same_iff (v := v) (a := str "normal") (b := str "NORMAL") (by decide), same_iff (v := v) (a := str "gamsbas") (b := str "GAMSBAS") (by decide),
    same_iff (v := v) (a := str "csv") (b := str "CSV") (by decide)]

theorem dfmtName_iff (v : Text) (f : DFmt) : DFmtName v f ↔ (upper v = str "NORMAL" ∧ f = .normal) ∨ (upper v = str "HEXPONENTIAL" ∧ f = .hexponential) ∨
    (upper v = str "HEXBYTES" ∧ f = .hexBytes) := by
  unfold DFmtName
  rw [same_iff (v := v) (a := str "normal") (b := str "NORMAL") (by decide), same_iff (v := v) (a := str "hexponential") (b := str "HEXPONENTIAL") (by decide),
    same_iff (v := v) (a := str "hexBytes") (b := str "HEXBYTES") (by decide)]

theorem upC_y {c : UInt8} : upC c = 89 ↔ c = 89 ∨ c = 121 := by
  have : ∀ m : Nat, m < 256 → (upC (UInt8.ofNat m) = 89 ↔ UInt8.ofNat m = 89 ∨ UInt8.ofNat m = 121) := by decide +kernel
  have h := this c.toNat c.toNat_lt
  rwa [UInt8.ofNat_toNat] at h

theorem upC_n {c : UInt8} : upC c = 78 ↔ c = 78 ∨ c = 110 := by
  have : ∀ m : Nat, m < 256 → (upC (UInt8.ofNat m) = 78 ↔ UInt8.ofNat m = 78 ∨ UInt8.ofNat m = 110) := by decide +kernel
  have h := this c.toNat c.toNat_lt
  rwa [UInt8.ofNat_toNat] at h

theorem yes_iff {v : Text} : Yes v ↔ v = [89] ∨ v = [121] := by
  unfold Yes
  rw [same_iff (b := [89]) (by decide), DiffOpts.upper_one (by decide)]
  constructor
  · rintro ⟨d, rfl, h⟩
    rcases upC_y.mp h with rfl | rfl
    · exact .inl rfl
    · exact .inr rfl
  · rintro (rfl | rfl)
    · exact ⟨_, rfl, by decide⟩
    · exact ⟨_, rfl, by decide⟩

theorem no_iff {v : Text} : No v ↔ v = [78] ∨ v = [110] := by
  unfold No
  rw [same_iff (b := [78]) (by decide), DiffOpts.upper_one (by decide)]
  constructor
  · rintro ⟨d, rfl, h⟩
    rcases upC_n.mp h with rfl | rfl
    · exact .inl rfl
    · exact .inr rfl
  · rintro (rfl | rfl)
    · exact ⟨_, rfl, by decide⟩
    · exact ⟨_, rfl, by decide⟩

theorem isYes_iff {v : Text} (h : Yes v ∨ No v) : (isYes v = true ↔ Yes v) ∧ (isYes v = false ↔ No v) := by
  rw [yes_iff, no_iff] at *
  rcases h with (rfl | rfl) | (rfl | rfl) <;> decide

/-! ### one option -/

/-- what an option changes -/
inductive Step (c : Conf) : Key → Str → Conf → Prop
  | symb {v} : c.symb = [] → v ≠ [] → Step c .symb v { c with symb := v }
  | uelTable {v} : c.uels = [] → v ≠ [] → Step c .uelTable v { c with uels := v }
  | delim {v d} : c.delim = none → DelimName v d → Step c .delim v { c with delim := some d }
  | decSep {v d} : c.sep = none → SepName v d → Step c .decSep v { c with sep := some d }
  | symbols {v} : Step c .symbols v { c with listAll := true }
  | domainInfo {v} : Step c .domainInfo v { c with domInfo := true }
  | setText {v} : Step c .setText v { c with setText := true }
  | asSet {v} : Step c .asSet v { c with asSet := true }
  | asSetDI {v} : Step c .asSetDI v { c with asSetDI := true }
  | noHeader {v} : Step c .noHeader v { c with showHdr := false }
  | noData {v} : Step c .noData v { c with showData := false }
  | allFields {v} : Step c .allFields v { c with allFields := true }
  | csvText {v} : Step c .csvText v { c with csvText := true }
  | format {v f} : c.fmt = none → FmtName v f → Step c .format v { c with fmt := some f }
  | dformat0 {v} : c.dfmt = none → DFmtName v .normal → Step c .dformat v { c with dfmt := none }
  | dformat {v f} : c.dfmt = none → DFmtName v f → f ≠ .normal → Step c .dformat v { c with dfmt := some f }
  | output {v} : c.out = [] → v ≠ [] → Step c .output v { c with out := v }
  | ide {v} : v ≠ [] → Step c .ide v { c with ide := isYes v }
  | filterDef {v} : v ≠ [] → Step c .filterDef v { c with filter := isYes v }
  | cdim {v} : v ≠ [] → Step c .cdim v { c with cdim := isYes v }
  | version {v} : Step c .version v { c with version := true }
  | eps {v} : Step c .eps v { c with eps := some v }
  | na {v} : Step c .na v { c with na := some v }
  | pinf {v} : Step c .pinf v { c with pinf := some v }
  | minf {v} : Step c .minf v { c with minf := some v }
  | undf {v} : Step c .undf v { c with undf := some v }
  | zero {v} : Step c .zero v { c with zero := some v }
  | header {v} : Step c .header v { c with header := some v }

theorem step_inv {c c' : Conf} {k : Key} {v : Str} (h : stepOf c (k, v) = some c') : Step c k v c' := by
  unfold stepOf at h
  dsimp only at h
  split at h
  · rename_i hk
    cases k <;> first
      | (cases hk; done)
      | (cases h; constructor)
  split at h
  · cases h
  rename_i hd
  cases k
  case symb =>
    have hn : c.symb = [] := by simpa [dup] using hd
    simp only [setVal] at h
    split at h
    · cases h
    · rename_i hv
      cases h
      exact .symb hn hv
  case uelTable =>
    have hn : c.uels = [] := by simpa [dup] using hd
    simp only [setVal] at h
    split at h
    · cases h
    · rename_i hv
      cases h
      exact .uelTable hn hv
  case output =>
    have hn : c.out = [] := by simpa [dup] using hd
    simp only [setVal] at h
    split at h
    · cases h
    · rename_i hv
      cases h
      exact .output hn hv
  case delim =>
    have hn : c.delim = none := by simpa [dup] using hd
    have : ∀ d, DelimName v d → c' = { c with delim := some d } → Step c .delim v c' := by
      rintro d h1 rfl
      exact .delim hn h1
    simp only [setVal] at h
    split at h
    · rename_i e
      exact this _ ((delimName_iff _ _).mpr (.inr (.inr (.inl ⟨e, rfl⟩)))) (Option.some.inj h).symm
    split at h
    · rename_i e
      exact this _ ((delimName_iff _ _).mpr (.inr (.inl ⟨e, rfl⟩))) (Option.some.inj h).symm
    split at h
    · rename_i e
      exact this _ ((delimName_iff _ _).mpr (.inl ⟨e, rfl⟩)) (Option.some.inj h).symm
    split at h
    · rename_i e
      exact this _ ((delimName_iff _ _).mpr (.inr (.inr (.inr (.inl ⟨e, rfl⟩))))) (Option.some.inj h).symm
    split at h
    · rename_i e
      exact this _ ((delimName_iff _ _).mpr (.inr (.inr (.inr (.inr ⟨e, rfl⟩))))) (Option.some.inj h).symm
    cases h
  case decSep =>
    have hn : c.sep = none := by simpa [dup] using hd
    have : ∀ d, SepName v d → c' = { c with sep := some d } → Step c .decSep v c' := by
      rintro d h1 rfl
      exact .decSep hn h1
    simp only [setVal] at h
    split at h
    · rename_i e
      exact this _ ((sepName_iff _ _).mpr (.inl ⟨e, rfl⟩)) (Option.some.inj h).symm
    split at h
    · rename_i e
      exact this _ ((sepName_iff _ _).mpr (.inr ⟨e, rfl⟩)) (Option.some.inj h).symm
    cases h
  case format =>
    have hn : c.fmt = none := by simpa [dup] using hd
    have : ∀ d, FmtName v d → c' = { c with fmt := some d } → Step c .format v c' := by
      rintro d h1 rfl
      exact .format hn h1
    simp only [setVal] at h
    split at h
    · rename_i e
      exact this _ ((fmtName_iff _ _).mpr (.inl ⟨e, rfl⟩)) (Option.some.inj h).symm
    split at h
    · rename_i e
      exact this _ ((fmtName_iff _ _).mpr (.inr (.inl ⟨e, rfl⟩))) (Option.some.inj h).symm
    split at h
    · rename_i e
      exact this _ ((fmtName_iff _ _).mpr (.inr (.inr ⟨e, rfl⟩))) (Option.some.inj h).symm
    cases h
  case dformat =>
    have hn : c.dfmt = none := by simpa [dup] using hd
    simp only [setVal] at h
    split at h
    · rename_i h1
      cases h
      exact .dformat0 hn ((dfmtName_iff _ _).mpr (.inl ⟨h1, rfl⟩))
    · split at h
      · rename_i h1
        cases h
        exact .dformat hn ((dfmtName_iff _ _).mpr (.inr (.inr ⟨h1, rfl⟩))) (by simp)
      · split at h
        · rename_i h1
          cases h
          exact .dformat hn ((dfmtName_iff _ _).mpr (.inr (.inl ⟨h1, rfl⟩))) (by simp)
        · cases h
  case ide =>
    simp only [setVal] at h
    split at h
    · cases h
    · rename_i hv
      cases h
      exact .ide hv
  case filterDef =>
    simp only [setVal] at h
    split at h
    · cases h
    · rename_i hv
      cases h
      exact .filterDef hv
  case cdim =>
    simp only [setVal] at h
    split at h
    · cases h
    · rename_i hv
      cases h
      exact .cdim hv
  all_goals first
    | (simp only [setVal] at h; cases h; constructor)
    | (rename_i hk; exact absurd rfl hk)

/-- The values of Y/N options are clear. -/
def YesNo (k : Key) (v : Text) : Prop := k ∈ [Key.ide, .filterDef, .cdim] → v ≠ [] → Yes v ∨ No v

theorem stepOf_none {c : Conf} {k : Key} {v : Str} (hp : YesNo k v) : stepOf c (k, v) = none ↔ dup c k = true ∨ BadVal k v := by
  unfold stepOf
  dsimp only
  constructor
  · intro h
    split at h
    · cases h
    · split at h
      · left; assumption
      · right
        cases k
        case symb =>
          simp only [setVal] at h
          split at h
          · rename_i hv; rw [hv]; exact .empty (by simp)
          · cases h
        case uelTable =>
          simp only [setVal] at h
          split at h
          · rename_i hv; rw [hv]; exact .empty (by simp)
          · cases h
        case output =>
          simp only [setVal] at h
          split at h
          · rename_i hv; rw [hv]; exact .empty (by simp)
          · cases h
        case ide =>
          simp only [setVal] at h
          split at h
          · rename_i hv; rw [hv]; exact .empty (by simp)
          · cases h
        case filterDef =>
          simp only [setVal] at h
          split at h
          · rename_i hv; rw [hv]; exact .empty (by simp)
          · cases h
        case cdim =>
          simp only [setVal] at h
          split at h
          · rename_i hv; rw [hv]; exact .empty (by simp)
          · cases h
        case delim =>
          refine .delim fun d hd => ?_
          simp only [setVal] at h
          repeat' split at h
          all_goals first
            | (cases h; done)
            | (rcases (delimName_iff _ _).mp hd with ⟨e, _⟩ | ⟨e, _⟩ | ⟨e, _⟩ | ⟨e, _⟩ | ⟨e, _⟩ <;> contradiction)
        case decSep =>
          refine .sep fun d hd => ?_
          simp only [setVal] at h
          repeat' split at h
          all_goals first
            | (cases h; done)
            | (rcases (sepName_iff _ _).mp hd with ⟨e, _⟩ | ⟨e, _⟩ <;> contradiction)
        case format =>
          refine .format fun d hd => ?_
          simp only [setVal] at h
          repeat' split at h
          all_goals first
            | (cases h; done)
            | (rcases (fmtName_iff _ _).mp hd with ⟨e, _⟩ | ⟨e, _⟩ | ⟨e, _⟩ <;> contradiction)
        case dformat =>
          refine .dformat fun d hd => ?_
          simp only [setVal] at h
          repeat' split at h
          all_goals first
            | (cases h; done)
            | (rcases (dfmtName_iff _ _).mp hd with ⟨e, _⟩ | ⟨e, _⟩ | ⟨e, _⟩ <;> contradiction)
        all_goals (simp only [setVal] at h; cases h)
  · intro h
    have hv : k.valued = true := by
      rcases h with h | h
      · cases k <;> first | rfl | (simp [dup] at h)
      · cases h with
        | empty h => simp only [List.mem_cons, List.not_mem_nil, or_false] at h; rcases h with rfl | rfl | rfl | rfl | rfl | rfl <;> rfl
        | yesNo h _ _ => simp only [List.mem_cons, List.not_mem_nil, or_false] at h; rcases h with rfl | rfl | rfl <;> rfl
        | _ => rfl
    rw [if_neg (by rw [hv]; simp)]
    rcases h with h | h
    · rw [if_pos h]
    · split
      · rfl
      · cases h with
        | empty h =>
          simp only [List.mem_cons, List.not_mem_nil, or_false] at h
          rcases h with rfl | rfl | rfl | rfl | rfl | rfl <;> rfl
        | yesNo h h1 h2 =>
          by_cases he : v = []
          · subst he
            simp only [List.mem_cons, List.not_mem_nil, or_false] at h
            rcases h with rfl | rfl | rfl <;> rfl
          · rcases hp h he with h3 | h3
            · exact absurd h3 h1
            · exact absurd h3 h2
        | delim h =>
          have h1 := fun e => h 9 ((delimName_iff _ _).mpr (.inr (.inr (.inl ⟨e, rfl⟩))))
          have h2 := fun e => h 44 ((delimName_iff _ _).mpr (.inr (.inl ⟨e, rfl⟩)))
          have h3 := fun e => h 46 ((delimName_iff _ _).mpr (.inl ⟨e, rfl⟩))
          have h4 := fun e => h 32 ((delimName_iff _ _).mpr (.inr (.inr (.inr (.inl ⟨e, rfl⟩)))))
          have h5 := fun e => h 59 ((delimName_iff _ _).mpr (.inr (.inr (.inr (.inr ⟨e, rfl⟩)))))
          simp only [setVal]
          rw [if_neg h1, if_neg h2, if_neg h3, if_neg h4, if_neg h5]
        | sep h =>
          have h2 := fun e => h 44 ((sepName_iff _ _).mpr (.inr ⟨e, rfl⟩))
          have h3 := fun e => h 46 ((sepName_iff _ _).mpr (.inl ⟨e, rfl⟩))
          simp only [setVal]
          rw [if_neg h3, if_neg h2]
        | format h =>
          have h1 := fun e => h .normal ((fmtName_iff _ _).mpr (.inl ⟨e, rfl⟩))
          have h2 := fun e => h .gamsbas ((fmtName_iff _ _).mpr (.inr (.inl ⟨e, rfl⟩)))
          have h3 := fun e => h .csv ((fmtName_iff _ _).mpr (.inr (.inr ⟨e, rfl⟩)))
          simp only [setVal]
          rw [if_neg h1, if_neg h2, if_neg h3]
        | dformat h =>
          have h1 := fun e => h .normal ((dfmtName_iff _ _).mpr (.inl ⟨e, rfl⟩))
          have h2 := fun e => h .hexponential ((dfmtName_iff _ _).mpr (.inr (.inl ⟨e, rfl⟩)))
          have h3 := fun e => h .hexBytes ((dfmtName_iff _ _).mpr (.inr (.inr ⟨e, rfl⟩)))
          simp only [setVal]
          rw [if_neg h1, if_neg h3, if_neg h2]

/-! ### all options -/

theorem given_cons {l : List (Key × Text)} {x : Key × Text} {k : Key} : Given (x :: l) k ↔ x.1 = k ∨ Given l k := by
  constructor
  · rintro ⟨v, hv⟩
    rcases List.mem_cons.mp hv with rfl | hv
    · exact .inl rfl
    · exact .inr ⟨v, hv⟩
  · rintro (rfl | ⟨v, hv⟩)
    · exact ⟨x.2, by simp⟩
    · exact ⟨v, List.mem_cons_of_mem _ hv⟩

theorem last_cons {l : List (Key × Text)} {x : Key × Text} {k : Key} {v : Text} (h : Last l k v) : Last (x :: l) k v := by
  obtain ⟨l₁, l₂, rfl, h2⟩ := h
  exact ⟨x :: l₁, l₂, rfl, h2⟩

theorem last_given {l : List (Key × Text)} {k : Key} {v : Text} (h : Last l k v) : (k, v) ∈ l := by
  obtain ⟨l₁, l₂, rfl, _⟩ := h
  simp

theorem last_unique {l : List (Key × Text)} {k : Key} {v w : Text} (h : Last l k v) (h' : Last l k w) : v = w := by
  obtain ⟨l₁, l₂, rfl, h2⟩ := h
  obtain ⟨m₁, m₂, e, h3⟩ := h'
  rcases List.append_eq_append_iff.mp e with ⟨a, rfl, ha⟩ | ⟨a, rfl, ha⟩
  · cases a with
    | nil => simp at ha; exact ha.1
    | cons y a =>
      rw [List.cons_append, List.cons.injEq] at ha
      exact absurd ⟨w, by rw [ha.2]; simp⟩ h2
  · cases a with
    | nil => simp at ha; exact ha.1.symm
    | cons y a =>
      rw [List.cons_append, List.cons.injEq] at ha
      exact absurd ⟨v, by rw [ha.2]; simp⟩ h3

/-- A variable is set by one option only, and by its last value. -/
theorem field_last {β : Type} (pr : Conf → β) (K : Key) (R : Str → β → Prop) (h1 : ∀ c c' k v, k ≠ K → Step c k v c' → pr c' = pr c)
    (h2 : ∀ c c' v, Step c K v c' → R v (pr c')) : ∀ (l : List (Key × Text)) (c c' : Conf), stepsOf c l = some c' →
    (¬ Given l K ∧ pr c' = pr c) ∨ (Given l K ∧ ∃ v, Last l K v ∧ R v (pr c')) := by
  intro l
  induction l with
  | nil =>
    intro c c' h
    rw [stepsOf, Option.some.injEq] at h
    refine .inl ⟨?_, by rw [h]⟩
    rintro ⟨v, hv⟩
    cases hv
  | cons x l ih =>
    intro c c' h
    rw [stepsOf] at h
    cases h3 : stepOf c x with
    | none =>
      rw [h3] at h
      cases h
    | some c1 =>
      rw [h3] at h
      rcases ih c1 c' h with ⟨i1, i2⟩ | ⟨i1, v, i2, i3⟩
      · by_cases hx : x.1 = K
        · obtain ⟨k, v⟩ := x
          dsimp only at hx
          subst hx
          refine .inr ⟨given_cons.mpr (.inl rfl), v, ⟨[], l, rfl, i1⟩, ?_⟩
          rw [i2]
          exact h2 c c1 v (step_inv h3)
        · refine .inl ⟨?_, ?_⟩
          · rw [given_cons]
            tauto
          · rw [i2]
            exact h1 c c1 x.1 x.2 hx (step_inv h3)
      · exact .inr ⟨given_cons.mpr (.inr i1), v, last_cons i2, i3⟩

/-- all the variables after the options -/
structure Vars (l : List (Key × Text)) (c : Conf) : Prop where
  symb : (¬ Given l .symb ∧ c.symb = []) ∨ (Given l .symb ∧ ∃ v, Last l .symb v ∧ (c.symb = v ∧ v ≠ []))
  uels : (¬ Given l .uelTable ∧ c.uels = []) ∨ (Given l .uelTable ∧ ∃ v, Last l .uelTable v ∧ (c.uels = v ∧ v ≠ []))
  out : (¬ Given l .output ∧ c.out = []) ∨ (Given l .output ∧ ∃ v, Last l .output v ∧ (c.out = v ∧ v ≠ []))
  delim : (¬ Given l .delim ∧ c.delim = none) ∨ (Given l .delim ∧ ∃ v, Last l .delim v ∧ ∃ d, c.delim = some d ∧ DelimName v d)
  sep : (¬ Given l .decSep ∧ c.sep = none) ∨ (Given l .decSep ∧ ∃ v, Last l .decSep v ∧ ∃ d, c.sep = some d ∧ SepName v d)
  fmt : (¬ Given l .format ∧ c.fmt = none) ∨ (Given l .format ∧ ∃ v, Last l .format v ∧ ∃ d, c.fmt = some d ∧ FmtName v d)
  dfmt : (¬ Given l .dformat ∧ c.dfmt = none) ∨ (Given l .dformat ∧ ∃ v, Last l .dformat v ∧
    ((c.dfmt = none ∧ DFmtName v .normal) ∨ ∃ d, c.dfmt = some d ∧ d ≠ .normal ∧ DFmtName v d))
  symbols : (¬ Given l .symbols ∧ c.listAll = false) ∨ (Given l .symbols ∧ ∃ v, Last l .symbols v ∧ c.listAll = true)
  domInfo : (¬ Given l .domainInfo ∧ c.domInfo = false) ∨ (Given l .domainInfo ∧ ∃ v, Last l .domainInfo v ∧ c.domInfo = true)
  setText : (¬ Given l .setText ∧ c.setText = false) ∨ (Given l .setText ∧ ∃ v, Last l .setText v ∧ c.setText = true)
  asSet : (¬ Given l .asSet ∧ c.asSet = false) ∨ (Given l .asSet ∧ ∃ v, Last l .asSet v ∧ c.asSet = true)
  asSetDI : (¬ Given l .asSetDI ∧ c.asSetDI = false) ∨ (Given l .asSetDI ∧ ∃ v, Last l .asSetDI v ∧ c.asSetDI = true)
  noHeader : (¬ Given l .noHeader ∧ c.showHdr = true) ∨ (Given l .noHeader ∧ ∃ v, Last l .noHeader v ∧ c.showHdr = false)
  noData : (¬ Given l .noData ∧ c.showData = true) ∨ (Given l .noData ∧ ∃ v, Last l .noData v ∧ c.showData = false)
  allFields : (¬ Given l .allFields ∧ c.allFields = false) ∨ (Given l .allFields ∧ ∃ v, Last l .allFields v ∧ c.allFields = true)
  csvText : (¬ Given l .csvText ∧ c.csvText = false) ∨ (Given l .csvText ∧ ∃ v, Last l .csvText v ∧ c.csvText = true)
  version : (¬ Given l .version ∧ c.version = false) ∨ (Given l .version ∧ ∃ v, Last l .version v ∧ c.version = true)
  ide : (¬ Given l .ide ∧ c.ide = false) ∨ (Given l .ide ∧ ∃ v, Last l .ide v ∧ (c.ide = isYes v ∧ v ≠ []))
  filter : (¬ Given l .filterDef ∧ c.filter = true) ∨ (Given l .filterDef ∧ ∃ v, Last l .filterDef v ∧ (c.filter = isYes v ∧ v ≠ []))
  cdim : (¬ Given l .cdim ∧ c.cdim = false) ∨ (Given l .cdim ∧ ∃ v, Last l .cdim v ∧ (c.cdim = isYes v ∧ v ≠ []))
  eps : (¬ Given l .eps ∧ c.eps = none) ∨ (Given l .eps ∧ ∃ v, Last l .eps v ∧ c.eps = some v)
  na : (¬ Given l .na ∧ c.na = none) ∨ (Given l .na ∧ ∃ v, Last l .na v ∧ c.na = some v)
  pinf : (¬ Given l .pinf ∧ c.pinf = none) ∨ (Given l .pinf ∧ ∃ v, Last l .pinf v ∧ c.pinf = some v)
  minf : (¬ Given l .minf ∧ c.minf = none) ∨ (Given l .minf ∧ ∃ v, Last l .minf v ∧ c.minf = some v)
  undf : (¬ Given l .undf ∧ c.undf = none) ∨ (Given l .undf ∧ ∃ v, Last l .undf v ∧ c.undf = some v)
  zero : (¬ Given l .zero ∧ c.zero = none) ∨ (Given l .zero ∧ ∃ v, Last l .zero v ∧ c.zero = some v)
  header : (¬ Given l .header ∧ c.header = none) ∨ (Given l .header ∧ ∃ v, Last l .header v ∧ c.header = some v)

macro "same_var" : tactic => `(tactic| (intro c c' k v hk hs; cases hs <;> first | rfl | exact absurd rfl hk))
macro "new_var" : tactic => `(tactic| (intro c c' v hs; cases hs; first | rfl | exact ⟨rfl, by assumption⟩ | exact ⟨_, rfl, by assumption⟩))

theorem vars_of {l : List (Key × Text)} {c : Conf} (h : stepsOf {} l = some c) : Vars l c where
  symb := field_last Conf.symb .symb (fun v b => b = v ∧ v ≠ []) (by same_var) (by new_var) l {} c h
  uels := field_last Conf.uels .uelTable (fun v b => b = v ∧ v ≠ []) (by same_var) (by new_var) l {} c h
  out := field_last Conf.out .output (fun v b => b = v ∧ v ≠ []) (by same_var) (by new_var) l {} c h
  delim := field_last Conf.delim .delim (fun v b => ∃ d, b = some d ∧ DelimName v d) (by same_var) (by new_var) l {} c h
  sep := field_last Conf.sep .decSep (fun v b => ∃ d, b = some d ∧ SepName v d) (by same_var) (by new_var) l {} c h
  fmt := field_last Conf.fmt .format (fun v b => ∃ d, b = some d ∧ FmtName v d) (by same_var) (by new_var) l {} c h
  dfmt := field_last Conf.dfmt .dformat (fun v b => (b = none ∧ DFmtName v .normal) ∨ ∃ d, b = some d ∧ d ≠ .normal ∧ DFmtName v d) (by same_var)
    (by
      intro c c' v hs
      cases hs with
      | dformat0 _ h => exact .inl ⟨rfl, h⟩
      | dformat _ h h2 => exact .inr ⟨_, rfl, h2, h⟩) l {} c h
  symbols := field_last Conf.listAll .symbols (fun _ b => b = true) (by same_var) (by new_var) l {} c h
  domInfo := field_last Conf.domInfo .domainInfo (fun _ b => b = true) (by same_var) (by new_var) l {} c h
  setText := field_last Conf.setText .setText (fun _ b => b = true) (by same_var) (by new_var) l {} c h
  asSet := field_last Conf.asSet .asSet (fun _ b => b = true) (by same_var) (by new_var) l {} c h
  asSetDI := field_last Conf.asSetDI .asSetDI (fun _ b => b = true) (by same_var) (by new_var) l {} c h
  noHeader := field_last Conf.showHdr .noHeader (fun _ b => b = false) (by same_var) (by new_var) l {} c h
  noData := field_last Conf.showData .noData (fun _ b => b = false) (by same_var) (by new_var) l {} c h
  allFields := field_last Conf.allFields .allFields (fun _ b => b = true) (by same_var) (by new_var) l {} c h
  csvText := field_last Conf.csvText .csvText (fun _ b => b = true) (by same_var) (by new_var) l {} c h
  version := field_last Conf.version .version (fun _ b => b = true) (by same_var) (by new_var) l {} c h
  ide := field_last Conf.ide .ide (fun v b => b = isYes v ∧ v ≠ []) (by same_var) (by new_var) l {} c h
  filter := field_last Conf.filter .filterDef (fun v b => b = isYes v ∧ v ≠ []) (by same_var) (by new_var) l {} c h
  cdim := field_last Conf.cdim .cdim (fun v b => b = isYes v ∧ v ≠ []) (by same_var) (by new_var) l {} c h
  eps := field_last Conf.eps .eps (fun v b => b = some v) (by same_var) (by new_var) l {} c h
  na := field_last Conf.na .na (fun v b => b = some v) (by same_var) (by new_var) l {} c h
  pinf := field_last Conf.pinf .pinf (fun v b => b = some v) (by same_var) (by new_var) l {} c h
  minf := field_last Conf.minf .minf (fun v b => b = some v) (by same_var) (by new_var) l {} c h
  undf := field_last Conf.undf .undf (fun v b => b = some v) (by same_var) (by new_var) l {} c h
  zero := field_last Conf.zero .zero (fun v b => b = some v) (by same_var) (by new_var) l {} c h
  header := field_last Conf.header .header (fun v b => b = some v) (by same_var) (by new_var) l {} c h

/-! ### errors -/

theorem stepsOf_append (c : Conf) (a b : List (Key × Text)) : stepsOf c (a ++ b) = (stepsOf c a).bind fun c => stepsOf c b := by
  induction a generalizing c with
  | nil => rfl
  | cons x a ih =>
    rw [List.cons_append, stepsOf, stepsOf]
    cases stepOf c x with
    | none => rfl
    | some c1 => exact ih c1

/-- What the theorems assume: Y/N options have the value Y or N, and `dFormat=normal` is not followed by another `dFormat`. -/
structure Plain (l : List (Key × Text)) : Prop where
  yesNo : ∀ x ∈ l, YesNo x.1 x.2
  dformat : ∀ a b c v w, l = a ++ (Key.dformat, v) :: b ++ (Key.dformat, w) :: c → ¬ SameNoCase v (str "normal")

theorem Plain.init {l : List (Key × Text)} {x : Key × Text} (h : Plain (l ++ [x])) : Plain l where
  yesNo y hy := h.yesNo y (List.mem_append_left _ hy)
  dformat a b c v w e := h.dformat a b (c ++ [x]) v w (by rw [e]; simp)

theorem given_split {l : List (Key × Text)} {k : Key} {v : Text} (h : (k, v) ∈ l) : ∃ a b, l = a ++ (k, v) :: b := List.append_of_mem h

theorem bad_snoc {l : List (Key × Text)} {x : Key × Text} : Bad (l ++ [x]) false ↔ Bad l false ∨ BadVal x.1 x.2 ∨ (x.1 ∈ once ∧ Given l x.1) := by
  constructor
  · rintro (h | ⟨h1, h2⟩ | @⟨k, v, w, a, b, c, h1, h2⟩)
    · cases h
    · rcases List.mem_append.mp h1 with h1 | h1
      · exact .inl (.value h1 h2)
      · rw [List.mem_singleton] at h1
        rw [← h1]
        exact .inr (.inl h2)
    · rcases List.eq_nil_or_concat c with rfl | ⟨c, y, rfl⟩
      · have := List.append_inj' h2 rfl
        have h3 : x = (k, w) := by simpa using this.2
        rw [h3]
        exact .inr (.inr ⟨h1, v, by rw [this.1]; simp⟩)
      · left
        rw [List.concat_eq_append, ← List.cons_append, ← List.append_assoc] at h2
        have := List.append_inj' h2 rfl
        exact .twice h1 this.1
  · rintro (h | h | ⟨h1, v, h2⟩)
    · rcases h with h | ⟨h1, h2⟩ | @⟨k, v, w, a, b, c, h1, h2⟩
      · cases h
      · exact .value (List.mem_append_left _ h1) h2
      · exact .twice (a := a) (b := b) (c := c ++ [x]) (v := v) (w := w) h1 (by rw [h2]; simp)
    · exact .value (k := x.1) (v := x.2) (by simp) h
    · obtain ⟨a, b, e⟩ := given_split h2
      exact .twice (k := x.1) (v := v) (w := x.2) (a := a) (b := b) (c := []) h1 (by rw [e])

theorem dup_iff {l : List (Key × Text)} {c : Conf} (h : Vars l c) {k : Key} (hd : k = .dformat → ∀ v, Last l .dformat v → ¬ SameNoCase v (str "normal")) :
    dup c k = true ↔ k ∈ once ∧ Given l k := by
  cases k
  case symb =>
    rcases h.symb with ⟨h1, h2⟩ | ⟨h1, v, _, h2, h3⟩
    · simp [dup, h2, h1]
    · simp [dup, h2, h1, h3, once]
  case uelTable =>
    rcases h.uels with ⟨h1, h2⟩ | ⟨h1, v, _, h2, h3⟩
    · simp [dup, h2, h1]
    · simp [dup, h2, h1, h3, once]
  case output =>
    rcases h.out with ⟨h1, h2⟩ | ⟨h1, v, _, h2, h3⟩
    · simp [dup, h2, h1]
    · simp [dup, h2, h1, h3, once]
  case delim =>
    rcases h.delim with ⟨h1, h2⟩ | ⟨h1, v, _, d, h2, _⟩
    · simp [dup, h2, h1]
    · simp [dup, h2, h1, once]
  case decSep =>
    rcases h.sep with ⟨h1, h2⟩ | ⟨h1, v, _, d, h2, _⟩
    · simp [dup, h2, h1]
    · simp [dup, h2, h1, once]
  case format =>
    rcases h.fmt with ⟨h1, h2⟩ | ⟨h1, v, _, d, h2, _⟩
    · simp [dup, h2, h1]
    · simp [dup, h2, h1, once]
  case dformat =>
    rcases h.dfmt with ⟨h1, h2⟩ | ⟨h1, v, h0, ⟨h2, h3⟩ | ⟨d, h2, _, _⟩⟩
    · simp [dup, h2, h1]
    · exfalso
      refine hd rfl v h0 ?_
      rcases h3 with ⟨h3, _⟩ | ⟨_, h3⟩ | ⟨_, h3⟩
      · exact h3
      · cases h3
      · cases h3
    · simp [dup, h2, h1, once]
  all_goals simp [dup, once]

theorem steps_some {l : List (Key × Text)} (hp : Plain l) : (∃ c, stepsOf {} l = some c) ↔ ¬ Bad l false := by
  induction l using List.reverseRecOn with
  | nil =>
    refine ⟨fun _ h => ?_, fun _ => ⟨_, rfl⟩⟩
    rcases h with h | ⟨h, _⟩ | ⟨_, h⟩
    · cases h
    · cases h
    · simp at h
  | append_singleton l x ih =>
    rw [bad_snoc, not_or, ← ih hp.init, stepsOf_append]
    cases hs : stepsOf {} l with
    | none => simp
    | some c =>
      have hv := vars_of hs
      have hd : x.1 = .dformat → ∀ v, Last l .dformat v → ¬ SameNoCase v (str "normal") := by
        intro hx v hl
        obtain ⟨a, b, e, _⟩ := hl
        refine hp.dformat a b [] v x.2 ?_
        rw [e, ← hx]
      have key := stepOf_none (c := c) (k := x.1) (v := x.2) (hp.yesNo x (by simp))
      rw [dup_iff hv hd] at key
      rw [Option.bind_some, stepsOf]
      cases ht : stepOf c x with
      | none =>
        have := key.mp ht
        simp only [Option.bind_eq_bind, Option.bind_none, reduceCtorEq, exists_false, false_iff, not_and, not_not]
        tauto
      | some c1 =>
        have : ¬ (x.1 ∈ once ∧ Given l x.1 ∨ BadVal x.1 x.2) := by
          intro h
          rw [key.mpr h] at ht
          cases ht
        refine ⟨fun _ => ⟨⟨c, rfl⟩, by tauto⟩, fun _ => ⟨c1, rfl⟩⟩

theorem form_len {w : Text} {a : List Text} {v : Text} {r : List Text} (h : Form w a v r) {n : Nat} (hl : ∀ b ∈ a, b.length ≤ n) : v.length ≤ n := by
  cases h with
  | joined _ => have := hl (w ++ 61 :: v) (by simp); simp at this; omega
  | after _ _ => exact hl v (by simp)
  | word _ _ => exact hl v (by simp)
  | before _ => have := hl (61 :: v) (by simp); simp at this; omega
  | apart _ _ => exact hl v (by simp)
  | last => simp
  | lastEq => simp
  | lastApart => simp

theorem means_len {args : List Text} {l : List (Key × Text)} {u : Bool} (h : Means args l u) {n : Nat} (hl : ∀ a ∈ args, a.length ≤ n) : ∀ x ∈ l, x.2.length ≤ n := by
  induction h with
  | nil => intro x hx; cases hx
  | @flag w k args l u hw _ _ ih =>
    intro x hx
    rcases List.mem_cons.mp hx with rfl | hx
    · simp
    · exact ih (fun a ha => hl a (List.mem_cons_of_mem _ ha)) x hx
  | @opt w k a v q args l u hw hf hq _ ih =>
    intro x hx
    rcases List.mem_cons.mp hx with rfl | hx
    · have := form_len hf (fun b hb => hl b (List.mem_append_left _ hb))
      rcases hq with ⟨_, rfl⟩ | ⟨_, rfl⟩
      · simp
      · exact this
    · exact ih (fun a ha => hl a (List.mem_append_right _ ha)) x hx
  | unknown _ => intro x hx; cases hx

/-! ### the variables and their meaning -/

theorem once_unique {l : List (Key × Text)} {u : Bool} (h : ¬ Bad l u) {k : Key} (hk : k ∈ once) {v w : Text} (hv : (k, v) ∈ l) (hw : (k, w) ∈ l) : v = w := by
  obtain ⟨a, b, e⟩ := given_split hv
  rw [e] at hw
  rcases List.mem_append.mp hw with hw | hw
  · obtain ⟨c, d, e2⟩ := given_split hw
    exact absurd (.twice hk (by rw [e, e2])) h
  · rcases List.mem_cons.mp hw with hw | hw
    · exact (Prod.mk.inj hw).2.symm
    · obtain ⟨c, d, e2⟩ := given_split hw
      exact absurd (.twice (a := a) (b := c) (c := d) (v := v) (w := w) hk (by rw [e, e2]; simp)) h

theorem val_of {β : Type} {l : List (Key × Text)} {u : Bool} (hb : ¬ Bad l u) {K : Key} (hk : K ∈ once) {N : Text → β → Prop} (hN : ∀ v a b, N v a → N v b → a = b)
    {o : Option β} {dflt : β} (h : (¬ Given l K ∧ o = none) ∨ (Given l K ∧ ∃ v, Last l K v ∧ ∃ d, o = some d ∧ N v d)) (d : β) :
    ((¬ Given l K ∧ d = dflt) ∨ ∃ v, (K, v) ∈ l ∧ N v d) ↔ d = o.getD dflt := by
  rcases h with ⟨h1, rfl⟩ | ⟨h1, v, h2, e, rfl, h3⟩
  · constructor
    · rintro (⟨_, h⟩ | ⟨v, hv, _⟩)
      · exact h
      · exact absurd ⟨v, hv⟩ h1
    · intro h
      exact .inl ⟨h1, h⟩
  · constructor
    · rintro (⟨h, _⟩ | ⟨w, hw, h⟩)
      · exact absurd h1 h
      · rw [once_unique hb hk hw (last_given h2)] at h
        exact hN v _ _ h h3
    · rintro rfl
      exact .inr ⟨v, last_given h2, h3⟩

theorem delim_fun (v : Text) (a b : UInt8) (h : DelimName v a) (h' : DelimName v b) : a = b := by
  rw [delimName_iff] at h h'
  rcases h with ⟨h, rfl⟩ | ⟨h, rfl⟩ | ⟨h, rfl⟩ | ⟨h, rfl⟩ | ⟨h, rfl⟩ <;> rw [h] at h' <;>
    rcases h' with ⟨h', rfl⟩ | ⟨h', rfl⟩ | ⟨h', rfl⟩ | ⟨h', rfl⟩ | ⟨h', rfl⟩ <;> first | rfl | exact absurd h' (by decide)

theorem sep_fun (v : Text) (a b : UInt8) (h : SepName v a) (h' : SepName v b) : a = b := by
  rw [sepName_iff] at h h'
  rcases h with ⟨h, rfl⟩ | ⟨h, rfl⟩ <;> rw [h] at h' <;> rcases h' with ⟨h', rfl⟩ | ⟨h', rfl⟩ <;> first | rfl | exact absurd h' (by decide)

theorem fmt_fun (v : Text) (a b : OFmt) (h : FmtName v a) (h' : FmtName v b) : a = b := by
  rw [fmtName_iff] at h h'
  rcases h with ⟨h, rfl⟩ | ⟨h, rfl⟩ | ⟨h, rfl⟩ <;> rw [h] at h' <;>
    rcases h' with ⟨h', rfl⟩ | ⟨h', rfl⟩ | ⟨h', rfl⟩ <;> first | rfl | exact absurd h' (by decide)

theorem textOf {l : List (Key × Text)} {k : Key} {o : Option Text} (h : (¬ Given l k ∧ o = none) ∨ (Given l k ∧ ∃ v, Last l k v ∧ o = some v)) : TextOf l k o := by
  rcases h with h | ⟨_, h⟩
  · exact .inl h
  · exact .inr h

theorem oneOf {l : List (Key × Text)} {k : Key} {s : Text} (h : (¬ Given l k ∧ s = []) ∨ (Given l k ∧ ∃ v, Last l k v ∧ (s = v ∧ v ≠ []))) :
    One l k s ∧ (s ≠ [] ↔ Given l k) := by
  rcases h with ⟨h1, h2⟩ | ⟨h1, v, h2, rfl, h3⟩
  · exact ⟨.inl ⟨h1, h2⟩, by simp [h1, h2]⟩
  · exact ⟨.inr (last_given h2), by simp [h1, h3]⟩

theorem flagOf {l : List (Key × Text)} {k : Key} {b : Bool} (t : Bool) (h : (¬ Given l k ∧ b = !t) ∨ (Given l k ∧ ∃ v, Last l k v ∧ b = t)) : b = t ↔ Given l k := by
  rcases h with ⟨h1, h2⟩ | ⟨h1, v, _, h2⟩
  · rw [h2]
    simp [h1]
  · simp [h1, h2]

theorem yesOf {l : List (Key × Text)} {k : Key} {b : Bool} (hk : k ∈ [Key.ide, .filterDef, .cdim]) (hp : Plain l)
    (h : (¬ Given l k ∧ b = false) ∨ (Given l k ∧ ∃ v, Last l k v ∧ (b = isYes v ∧ v ≠ []))) : b = true ↔ ∃ v, Last l k v ∧ Yes v := by
  rcases h with ⟨h1, h2⟩ | ⟨h1, v, h2, rfl, h3⟩
  · rw [h2]
    refine ⟨fun h => (by contradiction), ?_⟩
    rintro ⟨v, hv, _⟩
    exact absurd ⟨v, last_given hv⟩ h1
  · have := hp.yesNo (k, v) (last_given h2) hk h3
    rw [(isYes_iff this).1]
    refine ⟨fun h => ⟨v, h2, h⟩, ?_⟩
    rintro ⟨w, hw, h⟩
    have e := last_unique h2 hw
    rwa [e]

theorem noOf {l : List (Key × Text)} {k : Key} {b : Bool} (hk : k ∈ [Key.ide, .filterDef, .cdim]) (hp : Plain l)
    (h : (¬ Given l k ∧ b = true) ∨ (Given l k ∧ ∃ v, Last l k v ∧ (b = isYes v ∧ v ≠ []))) : b = false ↔ ∃ v, Last l k v ∧ No v := by
  rcases h with ⟨h1, h2⟩ | ⟨h1, v, h2, rfl, h3⟩
  · rw [h2]
    refine ⟨fun h => (by contradiction), ?_⟩
    rintro ⟨v, hv, _⟩
    exact absurd ⟨v, last_given hv⟩ h1
  · have := hp.yesNo (k, v) (last_given h2) hk h3
    rw [(isYes_iff this).2]
    refine ⟨fun h => ⟨v, h2, h⟩, ?_⟩
    rintro ⟨w, hw, h⟩
    have e := last_unique h2 hw
    rwa [e]

theorem act_first {l : List (Key × Text)} {c : Conf} (h : Vars l c) (f : OFmt) :
    First [(Given l .uelTable ∧ f = .csv, .uelsCsv), (Given l .symbols, .symbols), (Given l .asSet, .asSet false), (Given l .asSetDI, .asSet true),
      (Given l .domainInfo, .domInfo), (Given l .setText, .setText), (Given l .symb ∧ f = .csv, .csv c.symb), (Given l .symb, .one c.symb), (True, .all)] (actOf c f) := by
  rw [← (oneOf h.uels).2, ← flagOf true h.symbols, ← flagOf true h.asSet, ← flagOf true h.asSetDI, ← flagOf true h.domInfo, ← flagOf true h.setText, ← (oneOf h.symb).2]
  unfold actOf
  split
  · exact .here (by assumption)
  refine .there (by assumption) ?_
  split
  · exact .here (by assumption)
  refine .there (by assumption) ?_
  split
  · exact .here (by assumption)
  refine .there (by assumption) ?_
  split
  · exact .here (by assumption)
  refine .there (by assumption) ?_
  split
  · exact .here (by assumption)
  refine .there (by assumption) ?_
  split
  · exact .here (by assumption)
  refine .there (by assumption) ?_
  split
  · rename_i hs
    split
    · exact .here ⟨hs, by assumption⟩
    · rename_i hf
      exact .there (fun hh => hf hh.2) (.here hs)
  · rename_i hs
    exact .there (fun hh => hs hh.1) (.there hs (.here trivial))

/-- gdxdump takes the options as they are given; errors in them are reported (exit code 1, with the usage text if the options themselves are wrong), and so is
    a file that is not there (2). -/
theorem C79_options_partial (ex : Text → Bool) (dtoa : Dbl → DblStr.Digits) {file : Text} {args : List Text} {l : List (Key × Text)} {u : Bool} (ha : ¬ SameNoCase file (str "AUDIT"))
    (hm : Means args l u) (hlen : ∀ a ∈ args, a.length ≤ 254) (hp : Plain l) :
    (Bad l u ∧ main ex dtoa (file :: args) = .ok .usage) ∨
    (¬ Bad l u ∧ Conflict l ∧ main ex dtoa (file :: args) = .ok (.fail 1)) ∨
    (¬ Bad l u ∧ ¬ Conflict l ∧ ∃ n, InName ex file n ∧ ex n = false ∧ main ex dtoa (file :: args) = .ok (.fail 2)) ∨
    (¬ Bad l u ∧ ¬ Conflict l ∧ ∃ n, InName ex file n ∧ ex n = true ∧
      ((Given l .version ∧ main ex dtoa (file :: args) = .ok (.version n)) ∨
       (¬ Given l .version ∧ ∃ r, main ex dtoa (file :: args) = .ok (.run r) ∧ r.opt.dtoa = dtoa ∧ Takes ex file l r))) := by
  have hl2 := means_len hm hlen
  have hau : ¬ uEqual file (str "AUDIT") = true := by rw [uEqual_iff]; exact ha
  have hmain : main ex dtoa (file :: args) = .ok (match (do let c ← stepsOf {} l; if u = true then none else some c : Option Conf) with
      | none => .usage
      | some c => finish ex dtoa file c) := by
    unfold main
    dsimp only
    rw [if_neg hau, loop_means hm _ {} hlen (fun x hx => by have := hl2 x hx; omega) (by omega), Res.bind_ok]
    cases (do let c ← stepsOf {} l; if u = true then none else some c : Option Conf) <;> rfl
  have hbu : Bad l u ↔ u = true ∨ Bad l false := by
    constructor
    · rintro (h | ⟨h1, h2⟩ | ⟨h1, h2⟩)
      · exact .inl h
      · exact .inr (.value h1 h2)
      · exact .inr (.twice h1 h2)
    · rintro (h | h | ⟨h1, h2⟩ | ⟨h1, h2⟩)
      · exact .unknown h
      · cases h
      · exact .value h1 h2
      · exact .twice h1 h2
  cases hs : stepsOf {} l with
  | none =>
    left
    refine ⟨hbu.mpr (.inr ?_), by rw [hmain, hs]; rfl⟩
    by_contra hb
    obtain ⟨c, hc⟩ := (steps_some hp).mpr hb
    rw [hs] at hc
    cases hc
  | some c =>
    have hb0 : ¬ Bad l false := (steps_some hp).mp ⟨c, hs⟩
    by_cases hu : u = true
    · left
      refine ⟨hbu.mpr (.inl hu), ?_⟩
      rw [hmain, hs, hu]
      rfl
    right
    have hb : ¬ Bad l u := by rw [hbu]; tauto
    have hmain2 : main ex dtoa (file :: args) = .ok (finish ex dtoa file c) := by
      rw [hmain, hs]
      simp [hu]
    have hv := vars_of hs
    have hF : ∀ f, FormatOf l f ↔ f = c.fmt.getD .normal := fun f => val_of hb (by simp [once]) fmt_fun hv.fmt f
    have hS : ∀ d, SepOf l d ↔ d = c.sep.getD 46 := fun d => val_of hb (by simp [once]) sep_fun hv.sep d
    have hD : ∀ d, DelimOf l d ↔ d = c.delim.getD (if c.fmt.getD .normal = .csv then 44 else 46) := by
      intro d
      rw [← val_of hb (by simp [once]) delim_fun hv.delim d]
      unfold DelimOf
      rw [hF]
      by_cases hc : c.fmt.getD .normal = .csv
      · simp [hc]
      · have hc2 : ¬ OFmt.csv = c.fmt.getD .normal := fun h => hc h.symm
        rw [if_neg hc]
        simp only [hc2, false_and, not_false_eq_true, true_and, false_or]
    have hsy := oneOf hv.symb
    have hco : Conflict l ↔ (c.delim.getD (if c.fmt.getD .normal = .csv then 44 else 46) = c.sep.getD 46 ∧ c.delim.getD (if c.fmt.getD .normal = .csv then 44 else 46) ≠ 46) ∨
        (c.fmt.getD .normal = .csv ∧ c.symb = []) := by
      constructor
      · rintro (⟨h1, h2, h3⟩ | ⟨h1, h2⟩)
        · left
          rw [← (hD _).mp h1]
          exact ⟨(hS _).mp h2, h3⟩
        · right
          refine ⟨((hF _).mp h1).symm, ?_⟩
          by_contra h
          exact h2 (hsy.2.mp h)
      · rintro (⟨h1, h2⟩ | ⟨h1, h2⟩)
        · exact .same ((hD _).mpr rfl) ((hS _).mpr h1) h2
        · exact .noSymbol ((hF _).mpr h1.symm) fun h => (hsy.2.mpr h) h2
    by_cases hc : Conflict l
    · left
      refine ⟨hb, hc, ?_⟩
      rw [hmain2]
      unfold finish
      dsimp only
      rcases hco.mp hc with h | h
      · rw [if_pos h]
      · rw [if_pos h, ite_self]
    right
    have hc' := mt hco.mpr hc
    rw [not_or] at hc'
    have hin := checkFile_name ex file
    by_cases he : ex (checkFile ex file) = false
    · left
      refine ⟨hb, hc, _, hin, he, ?_⟩
      rw [hmain2]
      unfold finish
      dsimp only
      rw [if_neg hc'.1, if_neg hc'.2, if_pos he]
    right
    refine ⟨hb, hc, _, hin, by simpa using he, ?_⟩
    by_cases hver : c.version = true
    · left
      refine ⟨(flagOf true hv.version).mp hver, ?_⟩
      rw [hmain2]
      unfold finish
      dsimp only
      rw [if_neg hc'.1, if_neg hc'.2, if_neg he, if_pos hver]
    right
    refine ⟨fun h => hver ((flagOf true hv.version).mpr h), ?_⟩
    have hfin : ∃ r, finish ex dtoa file c = .run r := by
      unfold finish
      dsimp only
      rw [if_neg hc'.1, if_neg hc'.2, if_neg he, if_neg hver]
      exact ⟨_, rfl⟩
    obtain ⟨r, hr⟩ := hfin
    refine ⟨r, by rw [hmain2, hr], ?_⟩
    unfold finish at hr
    dsimp only at hr
    rw [if_neg hc'.1, if_neg hc'.2, if_neg he, if_neg hver] at hr
    injection hr with hr
    subst hr
    refine ⟨rfl, ?_⟩
    refine { input := hin, out := (oneOf hv.out).1, ide := yesOf (by simp) hp hv.ide, fmt := (hF _).mpr rfl, uels := (oneOf hv.uels).1, act := ⟨_, hsy.1, act_first hv _⟩,
             delim := (hD _).mpr rfl, sep := (hS _).mpr rfl, dfmt := ?_, eps := textOf hv.eps, na := textOf hv.na, pinf := textOf hv.pinf, minf := textOf hv.minf,
             undf := textOf hv.undf, zero := textOf hv.zero, header := textOf hv.header, showHdr := ?_, data := ?_, filter := noOf (by simp) hp hv.filter,
             cdim := yesOf (by simp) hp hv.cdim, allFields := flagOf true hv.allFields, csvText := flagOf true hv.csvText }
    · rcases hv.dfmt with ⟨h1, h2⟩ | ⟨h1, v, h0, ⟨h2, h3⟩ | ⟨d, h2, _, h3⟩⟩
      · exact .inl ⟨h1, by rw [h2]; rfl⟩
      · exact .inr ⟨v, last_given h0, by rw [h2]; exact h3⟩
      · exact .inr ⟨v, last_given h0, by rw [h2]; exact h3⟩
    · dsimp only
      rw [← flagOf false hv.noHeader, ← hsy.2]
      by_cases h1 : c.fmt.getD .normal = .gamsbas
      · simp [h1]
      · by_cases h2 : c.symb = []
        · simp [h1, h2]
        · simp [h1, h2]
    · dsimp only
      rw [← flagOf false hv.noData]
      cases h1 : c.fmt.getD .normal <;> simp

/-! ### examples and exceptions -/

def exFile (s : Str) : Bool := s = str "a.gdx"
def exDtoa : Dbl → DblStr.Digits := fun _ => ⟨[], 0, false⟩

/-- what can be compared: the outcome, and some of the options -/
inductive View
  | ub | audit | usage | fail (n : Nat) | version (n : Str)
  | run (input : Str) (act : Act) (fmt : OFmt) (dfmt : DFmt) (eps : Option Str) (cdim : Bool)
  deriving DecidableEq

def view : Res Outcome → View
  | .ub => .ub
  | .ok .audit => .audit
  | .ok .usage => .usage
  | .ok (.fail n) => .fail n
  | .ok (.version n) => .version n
  | .ok (.run r) => .run r.input r.act r.fmt r.opt.dfmt r.opt.eps r.opt.cdim

def run (args : List String) : View := view (main exFile exDtoa (args.map str))

example : run ["a", "Symb=x", "format", "=csv", "EPSOUT=''", "cdim", "=", "y"] = .run (str "a.gdx") (.csv (str "x")) .csv .normal (some []) true := by decide +kernel

example : run ["b", "Symbols"] = .fail 2 ∧ run ["a", "Format=csv"] = .fail 1 ∧ run ["a", "Symb=x", "Symb=y"] = .usage ∧ run ["a", "-v"] = .version (str "a.gdx") := by
  decide +kernel

/-- the hypotheses of the theorem can be met -/
example : Means (["Symb=x", "format", "csv", "nodata"].map str) [(.symb, str "x"), (.format, str "csv"), (.noData, [])] false := by
  refine .opt (w := str "Symb") (a := [str "Symb=x"]) (v := str "x") ⟨"Symb", by simp [options], rfl⟩ (.joined (by decide)) (.inr ⟨by decide, rfl⟩) ?_
  refine .opt (w := str "format") (a := [str "format", str "csv"]) (v := str "csv") ⟨"Format", by simp [options], by decide⟩ (.word (by decide) ?_) (.inr ⟨by decide, rfl⟩) ?_
  · intro a h
    cases h
    decide
  refine .flag ⟨"NoData", by simp [flags], by decide⟩ ?_ .nil
  intro a h
  cases h

/-- An empty value takes the next argument: `EpsOut= Format=csv` makes `Format=` the text for EPS, and `csv` is no option. -/
theorem C79_swallow : run ["a", "Symb=x", "EpsOut=", "Format=csv"] = .run (str "a.gdx") (.one (str "x")) .normal .normal (some (str "Format=")) false ∧
    run ["a", "Symb=x", "EpsOut=", "Format=csv", "Symbols"] = .usage := by decide +kernel

/-- What follows an equal sign in a value of its own is not looked at, if it is the last argument: `Symb x=y`. -/
theorem C79_ignored : run ["a", "Symb", "x=y"] = .run (str "a.gdx") (.one (str "x=")) .normal .normal none false := by decide +kernel

/-- `CDim=true` means no; any value but those that begin with y or 1 does. -/
theorem C79_maybe : run ["a", "Symb=x", "Format=csv", "CDim=true"] = .run (str "a.gdx") (.csv (str "x")) .csv .normal none false := by decide +kernel

/-- `dFormat` can be given twice if the first value is `normal`. -/
theorem C79_again : run ["a", "dFormat=normal", "dFormat=hexBytes"] = .run (str "a.gdx") (.all) .normal .hexBytes none false ∧
    run ["a", "dFormat=hexBytes", "dFormat=normal"] = .usage := by decide +kernel

/-- An argument of more than 255 bytes does not fit into the ShortString `s`: undefined behavior. -/
theorem C79_long (ex : Text → Bool) (dtoa : Dbl → DblStr.Digits) {file w : Text} {args : List Text} (ha : ¬ SameNoCase file (str "AUDIT")) (h61 : 61 ∉ w) (hf : Free args)
    (h : 255 < w.length) : main ex dtoa (file :: w :: args) = .ub := by
  have hau : ¬ uEqual file (str "AUDIT") = true := by rw [uEqual_iff]; exact ha
  have hn : noQuotes w = w := by
    refine noQuotes_of ?_
    rintro rfl
    simp at h
  unfold main
  dsimp only
  rw [if_neg hau, List.length_cons, show 2 * (args.length + 1) + 1 = (2 * args.length + 2) + 1 by omega, loop, if_neg (by simp), np_free h61 hf, hn]
  have hs : ¬ w.length ≤ 255 := by omega
  simp only [short, if_neg hs]
  rfl

#print axioms C79_options_partial
#print axioms C79_swallow
#print axioms C79_ignored
#print axioms C79_maybe
#print axioms C79_again
#print axioms C79_long

end Gdx.DumpOpts
