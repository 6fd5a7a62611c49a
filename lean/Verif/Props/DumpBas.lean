import Verif.Model.DumpBas
import Verif.Spec.GamsBas
import Verif.Props.DumpTables

/-!
C82: what gdxdump writes with Format=gamsbas is a program that assigns the levels and marginals of all variables and the marginals of all equations.
-/

namespace Gdx.Props
open Gdx Gdx.Dump Gdx.DblStr Gdx.Diff Gdx.Gams

/-! ## what must be read -/

/-- the assignment for a field: level 0 (`L`) or marginal 1 (`M`). It is missing if the value is 0 and defaults are filtered. -/
def FieldSet (o : GOpt) (a : Gx) (name : Str) (ls : List Str) (r : RecOut Int) (k : Nat) (as : List Assign) : Prop :=
  ∃ v, r.vals[k]? = some v ∧ ((o.filter = true ∧ v.fv = .fin 0) ∧ as = [] ∨
    ¬ (o.filter = true ∧ v.fv = .fin 0) ∧ ∃ t, ValueText o.toOpt a v t ∧ as = [⟨name, if k = 0 then [76] else [77], ls, t⟩])

/-- the assignments for a record: level and marginal of a variable, marginal of an equation -/
def RecordSet (o : GOpt) (a : Gx) (name : Str) (typ : Nat) (r : RecOut Int) (as : List Assign) : Prop :=
  ∃ ls ass, List.Forall₂ (LabelIs a) r.key ls ∧ List.Forall₂ (FieldSet o a name ls r) (if typ = dtEqu then [1] else [0, 1]) ass ∧ as = ass.flatten

/-- the assignments for a symbol: none for sets, parameters and aliases -/
def SymbolSet (o : GOpt) (a : Gx) (s : Sym) (outs : List (RecOut Int)) (as : List Assign) : Prop :=
  if s.typ = dtVar ∨ s.typ = dtEqu then ∃ ass, List.Forall₂ (RecordSet o a s.name s.typ) outs ass ∧ as = ass.flatten else as = []

/-- the options: a dot or comma between labels, a dot in numbers; words for special values -/
structure BasOk (o : GOpt) : Prop where
  delim : o.delim = 46 ∨ o.delim = 44
  sep : o.sep = 46
  sv : ∀ t, UserWord o.toOpt t → ValWord t
  zero : ∀ t, o.zero = some t → ValWord t

theorem bas_word {o : GOpt} (ho : BasOk o) {a : Gx} {v : Dbl} (hv : GValOk o a v) : ∃ t, wrVal o.toOpt a v = .ok t ∧ ValWord t ∧ ValueText o.toOpt a v t := by
  have h : GOptOk { o with delim := 46, showHdr := true, data := true } := ⟨rfl, ho.sep, rfl, rfl, ho.sv, ho.zero⟩
  exact val_word h (a := a) (v := v) ⟨hv.acr, hv.fin⟩

/-! ## the reader -/

theorem label_full {s : Str} (h : OneQuote s) (r : Str) : label (writeUEL s ++ r) = some (s, r) := by
  obtain ⟨_, h2⟩ := qq_ok h
  have := token_uel (ends := endsWord) h r
  unfold writeUEL at this ⊢
  unfold label
  rw [show [qq s] ++ s ++ [qq s] ++ r = qq s :: (s ++ qq s :: r) by simp] at this ⊢
  simp only
  rw [this, if_neg]
  rcases h2 with h | h <;> rw [h] <;> decide

theorem skip_uel {s : Str} (h : OneQuote s) (r : Str) : skip (writeUEL s ++ r) = writeUEL s ++ r := by
  obtain ⟨_, h2⟩ := qq_ok h
  unfold writeUEL
  rw [show [qq s] ++ s ++ [qq s] ++ r = qq s :: (s ++ qq s :: r) by simp]
  unfold skip
  rw [List.dropWhile_cons_of_neg]
  rcases h2 with h | h <;> rw [h] <;> decide

theorem indices_step {f : Nat} {s w r : Str} (h : label (skip s) = some (w, r)) {d : UInt8} (hd : d = 46 ∨ d = 44) {q : Str} (hr : r = d :: q) :
    indices (f + 1) s = (indices f q).map fun p => (w :: p.1, p.2) := by
  subst hr
  conv => lhs; unfold indices
  rw [h]
  simp only [Option.bind_eq_bind, Option.bind_some]
  rcases hd with rfl | rfl
  · show (indices f q).bind _ = _
    cases indices f q <;> rfl
  · show (indices f q).bind _ = _
    cases indices f q <;> rfl

theorem indices_ok {d : UInt8} (hd : d = 46 ∨ d = 44) : ∀ {ss : List Str}, ss ≠ [] → (∀ s ∈ ss, OneQuote s) → ∀ (f : Nat) (x : Str), ss.length ≤ f →
    indices f (joined d (ss.map writeUEL) ++ 41 :: x) = some (ss, x)
  | [], h0, _, _, _, _ => absurd rfl h0
  | [s], _, h, f, x, hf => by
    obtain ⟨f, rfl⟩ : ∃ k, f = k + 1 := ⟨f - 1, by simp at hf; omega⟩
    show indices (f + 1) (writeUEL s ++ 41 :: x) = _
    unfold indices
    rw [skip_uel (h s (by simp)), label_full (h s (by simp))]
    rfl
  | s :: t :: ss, _, h, f, x, hf => by
    obtain ⟨f, rfl⟩ : ∃ k, f = k + 1 := ⟨f - 1, by simp at hf; omega⟩
    have e : joined d ((s :: t :: ss).map writeUEL) ++ 41 :: x = writeUEL s ++ d :: (joined d ((t :: ss).map writeUEL) ++ 41 :: x) := by
      show (writeUEL s ++ [d] ++ joined d ((t :: ss).map writeUEL)) ++ 41 :: x = _
      simp
    rw [e, indices_step (by rw [skip_uel (h s (by simp)), label_full (h s (by simp))]) hd rfl,
      indices_ok hd (by simp) (fun u hu => h u (by simp at hu ⊢; tauto)) f x (by simp at hf ⊢; omega)]
    rfl

theorem name_field (k : Nat) (r : Str) : name (valTyp k ++ 32 :: r) = some (valTyp k, 32 :: r) := by
  unfold valTyp
  split <;> rfl

theorem token_val {t : Str} (h : ValWord t) (r : Str) (hr : ∀ c, r.head? = some c → endsVal c = true) : token endsVal (t ++ r) = some (t, r) := by
  cases t with
  | nil => exact absurd rfl h.ne
  | cons c t =>
    obtain ⟨h1, h2, _⟩ := h.head c rfl
    obtain ⟨e1, e2⟩ := takeWhile_append_stop (p := fun d => !endsVal d) (s := c :: t) (r := r) (fun d hd => by rw [h.ends d hd]; rfl) (fun d hd => by rw [hr d hd]; rfl)
    rw [List.cons_append] at e1 e2 ⊢
    unfold token
    simp only
    rw [if_neg (by rintro (h | h) <;> contradiction), e1, e2]

theorem skip_word {t : Str} (h : ValWord t) (r : Str) : skip (t ++ r) = t ++ r := by
  cases t with
  | nil => exact absurd rfl h.ne
  | cons c t =>
    obtain ⟨h1, h2, _⟩ := h.chars c (by simp)
    rw [List.cons_append]
    unfold skip
    rw [List.dropWhile_cons_of_neg]
    simp [isBlank, h1, h2]

/-- what is written for a value, without the blank before it -/
def itemText (o : GOpt) (n : Str) (k : Nat) (ls : List Str) (v : Str) : Str :=
  n ++ [46] ++ valTyp k ++ [32] ++ (if ls.length > 0 then [40] ++ joined o.delim (ls.map writeUEL) ++ [41] else []) ++ [32, 61, 32] ++ v

theorem assign_ok {o : GOpt} (ho : BasOk o) {n : Str} (hn : isGoodIdent n = true) {k : Nat} {ls : List Str} (hl : ∀ s ∈ ls, OneQuote s) {v : Str} (hv : ValWord v) (x : Str) :
    assign (itemText o n k ls v ++ sEnd ++ x) = some (⟨n, valTyp k, ls, v⟩, 10 :: x) := by
  have hopt : optIndices (skip (32 :: ((if ls.length > 0 then [40] ++ joined o.delim (ls.map writeUEL) ++ [41] else []) ++ ([32, 61, 32] ++ v ++ sEnd ++ x)))) =
      some (ls, if ls.length > 0 then [32, 61, 32] ++ v ++ sEnd ++ x else [61, 32] ++ v ++ sEnd ++ x) := by
    by_cases h0 : ls.length > 0
    · rw [if_pos h0, if_pos h0]
      show indices _ (joined o.delim (ls.map writeUEL) ++ [41] ++ _) = _
      rw [show joined o.delim (ls.map writeUEL) ++ [41] ++ ([32, 61, 32] ++ v ++ sEnd ++ x) = joined o.delim (ls.map writeUEL) ++ 41 :: ([32, 61, 32] ++ v ++ sEnd ++ x) by simp, indices_ok ho.delim (by intro h; rw [h] at h0; exact absurd h0 (by decide)) hl]
      have : ls.length ≤ (joined o.delim (ls.map writeUEL)).length := by
        clear hl h0
        induction ls with
        | nil => simp
        | cons s ls ih =>
          rw [List.map_cons, joined_cons]
          have hq : 1 ≤ (writeUEL s).length := by unfold writeUEL; simp
          have hsum : ∀ l : List Str, l.length ≤ ((l.map writeUEL).map fun t => [o.delim] ++ t).flatten.length := by
            intro l
            induction l with
            | nil => simp
            | cons t l ih =>
              simp only [List.map_cons, List.flatten_cons, List.length_append, List.length_cons]
              omega
          have := hsum ls
          rw [List.length_append, List.length_cons]
          omega
      show ls.length ≤ (joined o.delim (ls.map writeUEL) ++ [41] ++ ([32, 61, 32] ++ v ++ sEnd ++ x)).length + 1
      rw [List.length_append, List.length_append]
      omega
    · have : ls = [] := List.length_eq_zero_iff.mp (by omega)
      subst this
      rfl
  have e : itemText o n k ls v ++ sEnd ++ x =
      n ++ 46 :: (valTyp k ++ 32 :: ((if ls.length > 0 then [40] ++ joined o.delim (ls.map writeUEL) ++ [41] else []) ++ ([32, 61, 32] ++ v ++ sEnd ++ x))) := by
    unfold itemText
    simp [List.append_assoc]
  rw [e]
  unfold assign
  rw [name_ok hn (by intro c hc; cases hc; decide)]
  simp only [Option.bind_eq_bind, Option.bind_some]
  rw [name_field]
  simp only [Option.bind_some]
  rw [hopt]
  simp only [Option.bind_some]
  have hs : skip (if ls.length > 0 then [32, 61, 32] ++ v ++ sEnd ++ x else [61, 32] ++ v ++ sEnd ++ x) = 61 :: ([32] ++ v ++ sEnd ++ x) := by
    split <;> rfl
  rw [hs]
  simp only
  have hv' : token endsVal (skip ([32] ++ v ++ sEnd ++ x)) = some (v, sEnd ++ x) := by
    rw [show skip ([32] ++ v ++ sEnd ++ x) = skip (v ++ (sEnd ++ x)) by simp [skip, isBlank], skip_word hv]
    exact token_val hv _ (by intro c hc; cases hc; decide)
  rw [hv']
  rfl

theorem assigns_newline (f : Nat) (b e : Bool) (s : Str) : assigns f b e (10 :: s) = assigns f true e s := by
  cases f with
  | zero => rfl
  | succ f =>
    unfold assigns
    rfl

theorem assigns_mono : ∀ {f f' : Nat} {b e : Bool} {s : Str} {l : List Assign × Bool}, assigns f b e s = some l → f ≤ f' → assigns f' b e s = some l := by
  intro f
  induction f with
  | zero =>
    intro f' b e s l h _
    cases h
  | succ f ih =>
    intro f' b e s l h hf
    obtain ⟨f', rfl⟩ : ∃ k, f' = k + 1 := ⟨f' - 1, by omega⟩
    unfold assigns at h ⊢
    generalize skipL b s = u at h ⊢
    obtain ⟨st, u⟩ := u
    cases u with
    | nil => exact h
    | cons c u =>
      dsimp only at h ⊢
      by_cases h1 : c = 59
      · rw [if_pos h1] at h ⊢
        exact ih h (by omega)
      · rw [if_neg h1] at h ⊢
        by_cases h2 : c = 36
        · rw [if_pos h2] at h ⊢
          split at h
          · cases h
          · rename_i h3
            rw [if_neg h3]
            split at h
            · rename_i h4
              rw [if_pos h4]
              exact ih h (by omega)
            · rename_i h4
              rw [if_neg h4]
              split at h
              · rename_i h5
                rw [if_pos h5]
                exact ih h (by omega)
              · rename_i h5
                rw [if_neg h5]
                split at h
                · rename_i h6
                  rw [if_pos h6]
                  exact ih h (by omega)
                · cases h
        · rw [if_neg h2] at h ⊢
          obtain ⟨⟨w, r⟩, k1, h⟩ := Option.bind_eq_some_iff.mp h
          obtain ⟨⟨l1, e1⟩, k2, h⟩ := Option.bind_eq_some_iff.mp h
          rw [k1]
          simp only [Option.bind_eq_bind, Option.bind_some]
          rw [ih k2 (by omega)]
          exact h

/-! ## pieces of the program -/

/-- a text is read as these assignments, whatever follows it; the number of values that are written goes from `lc` to `lc'` -/
def Sets (t : Str) (as : List Assign) (lc lc' : Nat) : Prop :=
  ∃ k, k ≤ t.length ∧ ∀ (f : Nat) (x : Str), assigns (f + k) true (decide (lc ≤ 6)) (uncomment true false (t ++ x)) =
    (assigns f true (decide (lc' ≤ 6)) (uncomment true false x)).map fun p => (as ++ p.1, p.2)

theorem Sets.nil (lc : Nat) : Sets [] [] lc lc :=
  ⟨0, by simp, fun f x => by
    rw [List.nil_append, Nat.add_zero]
    cases assigns f true (decide (lc ≤ 6)) (uncomment true false x) <;> rfl⟩

theorem Sets.append {t t' : Str} {as as' : List Assign} {l1 l2 l3 : Nat} (h : Sets t as l1 l2) (h' : Sets t' as' l2 l3) : Sets (t ++ t') (as ++ as') l1 l3 := by
  obtain ⟨k, k1, k2⟩ := h
  obtain ⟨m, m1, m2⟩ := h'
  refine ⟨m + k, by rw [List.length_append]; omega, fun f x => ?_⟩
  rw [List.append_assoc, ← Nat.add_assoc, k2, m2]
  cases assigns f true (decide (l3 ≤ 6)) (uncomment true false x) <;> simp

theorem Sets.comments {cs : List Str} (h : ∀ c ∈ cs, (10 : UInt8) ∉ c) (lc : Nat) : Sets (cs.map fun s => [42, 32] ++ s ++ [10]).flatten [] lc lc :=
  ⟨0, by simp, fun f x => by
    rw [unc_comments h, Nat.add_zero]
    cases assigns f true (decide (lc ≤ 6)) (uncomment true false x) <;> rfl⟩

theorem Sets.newline (lc : Nat) : Sets [10] [] lc lc :=
  ⟨0, by simp, fun f x => by
    rw [List.singleton_append, unc_cons, if_neg (by decide), assigns_newline, Nat.add_zero, show ((10 : UInt8) == 10) = true from rfl]
    cases assigns f true (decide (lc ≤ 6)) (uncomment true false x) <;> rfl⟩

theorem Sets.empty (lc : Nat) : Sets sEnd [] lc lc := by
  refine ⟨1, by decide, fun f x => ?_⟩
  rw [show sEnd ++ x = [32, 59] ++ 10 :: x from rfl, unc_line (by decide) true (by decide)]
  generalize uncomment true false x = y
  have : assigns (f + 1) true (decide (lc ≤ 6)) ([32, 59] ++ 10 :: y) = assigns f false (decide (lc ≤ 6)) (10 :: y) := by
    conv => lhs; unfold assigns
    rfl
  rw [this, assigns_newline]
  cases assigns f true (decide (lc ≤ 6)) y <;> rfl

/-- a line with a dollar -/
theorem dollar_line {w : Str} (hw : (10 : UInt8) ∉ w) (hd : w.head? = some 36) (f : Nat) (on : Bool) (y : Str) :
    assigns (f + 1) true on (w ++ 10 :: y) =
      if w = wOnEmpty ∨ w = wOffEmpty then assigns f true on y else if w = wOffListing then assigns f true false y else if w = wOnListing then assigns f true true y else none := by
  cases w with
  | nil => cases hd
  | cons c w =>
    have hc : c = 36 := by simpa using hd
    subst hc
    have e1 : (36 :: (w ++ 10 :: y)).takeWhile (· != 10) = 36 :: w ∧ (36 :: (w ++ 10 :: y)).dropWhile (· != 10) = 10 :: y := by
      have := takeWhile_append_stop (p := fun d : UInt8 => d != 10) (s := 36 :: w) (r := 10 :: y) (fun d hd => by
        simp only [bne_iff_ne]
        rintro rfl
        exact hw hd) (fun d hd => by cases hd; rfl)
      simpa using this
    conv => lhs; unfold assigns
    rw [show skipL true (36 :: w ++ 10 :: y) = (true, 36 :: (w ++ 10 :: y)) from rfl]
    dsimp only
    rw [if_neg (by decide), if_pos rfl, if_neg (by decide), e1.1, e1.2]
    simp only [assigns_newline]

theorem Sets.off : Sets sOffListing [] 6 7 := by
  refine ⟨1, by decide, fun f x => ?_⟩
  rw [show sOffListing ++ x = wOffListing ++ 10 :: x from rfl, unc_line (by decide) true (by decide), dollar_line (by decide) (by decide), if_neg (by decide), if_pos rfl]
  show assigns f true false _ = (assigns f true false _).map _
  cases assigns f true false (uncomment true false x) <;> rfl

theorem Sets.item {o : GOpt} (ho : BasOk o) {n : Str} (hn : isGoodIdent n = true) {k : Nat} {ls : List Str} (hl : ∀ s ∈ ls, OneQuote s ∧ (10 : UInt8) ∉ s) {v : Str} (hv : ValWord v) {l l' : Nat}
    (hll : decide (l ≤ 6) = decide (l' ≤ 6)) : Sets (32 :: itemText o n k ls v ++ sEnd) [⟨n, valTyp k, ls, v⟩] l l' := by
  have hline : (10 : UInt8) ∉ 32 :: itemText o n k ls v ++ [32, 59] := by
    have hid : (10 : UInt8) ∉ n := fun hc => (name_blank ((ident_chars hn).2 10 hc)).2.2.2 rfl
    have hvt : (10 : UInt8) ∉ valTyp k := fun hc => valTyp_name.2.2.1 10 hc rfl
    have hv10 : (10 : UInt8) ∉ v := fun hc => (hv.chars 10 hc).2.1 rfl
    have hj : (10 : UInt8) ∉ joined o.delim (ls.map writeUEL) := by
      intro hc
      refine joined_chars (d := o.delim) (by rcases ho.delim with h | h <;> rw [h] <;> decide) (ts := ls.map writeUEL) ?_ 10 hc rfl
      intro t ht c hc
      obtain ⟨s, hs, rfl⟩ := List.mem_map.mp ht
      obtain ⟨h1, h2⟩ := hl s hs
      obtain ⟨_, hq⟩ := qq_ok h1
      rintro rfl
      unfold writeUEL at hc
      simp only [List.mem_append, List.mem_singleton] at hc
      rcases hc with (hc | hc) | hc
      · rcases hq with h | h <;> rw [h] at hc <;> exact absurd hc (by decide)
      · exact h2 hc
      · rcases hq with h | h <;> rw [h] at hc <;> exact absurd hc (by decide)
    unfold itemText
    intro hc
    simp only [List.mem_append, List.mem_cons, List.not_mem_nil, or_false] at hc
    rcases hc with (hc | hc) | hc | hc
    · exact absurd hc (by decide)
    · rcases hc with (((((hc | hc) | hc) | hc) | hc) | hc) | hc
      · exact hid hc
      · exact absurd hc (by decide)
      · exact hvt hc
      · exact absurd hc (by decide)
      · split at hc
        · simp only [List.mem_append, List.mem_cons, List.not_mem_nil, or_false] at hc
          rcases hc with (hc | hc) | hc
          · exact absurd hc (by decide)
          · exact hj hc
          · exact absurd hc (by decide)
        · cases hc
      · rcases hc with hc | hc | hc <;> exact absurd hc (by decide)
      · exact hv10 hc
    · exact absurd hc (by decide)
    · exact absurd hc (by decide)
  refine ⟨1, by simp [sEnd], fun f x => ?_⟩
  have e : 32 :: itemText o n k ls v ++ sEnd ++ x = (32 :: itemText o n k ls v ++ [32, 59]) ++ 10 :: x := by simp [sEnd]
  rw [e, unc_line hline true (by intro _; simp)]
  generalize uncomment true false x = y
  have e2 : (32 :: itemText o n k ls v ++ [32, 59]) ++ 10 :: y = 32 :: (itemText o n k ls v ++ sEnd ++ y) := by simp [sEnd]
  rw [e2]
  have hass := assign_ok ho hn (k := k) (fun s hs => (hl s hs).1) hv y
  have hhead : ∃ c q, itemText o n k ls v ++ sEnd ++ y = c :: q ∧ isName c = true := by
    obtain ⟨h1, h2⟩ := ident_chars hn
    cases n with
    | nil => exact absurd rfl h1
    | cons c n => exact ⟨c, _, rfl, h2 c (by simp)⟩
  obtain ⟨c, q, hcq, hcn⟩ := hhead
  rw [hcq] at hass ⊢
  have hb := name_blank hcn
  have hskip : skipL true (32 :: c :: q) = (false, c :: q) := by
    show skipL false (c :: q) = _
    unfold skipL
    rw [if_neg (by rw [hb.1]; decide)]
  conv => lhs; unfold assigns
  rw [hskip]
  dsimp only
  rw [if_neg (by rintro rfl; revert hcn; decide), if_neg (by rintro rfl; revert hcn; decide), hass]
  simp only [Option.bind_eq_bind, Option.bind_some]
  rw [assigns_newline, hll]
  cases assigns f true (decide (l' ≤ 6)) y <;> rfl

/-! ## what is written -/

/-- values with what comes between them -/
def basText : Bool → Nat → List Str → Str
  | _, _, [] => []
  | first, lc, t :: ts => (if first then [] else sEnd) ++ (if lc = 6 then sOffListing else []) ++ t ++ basText false (lc + 1) ts

theorem basText_append : ∀ (ts us : List Str) (first : Bool) (lc : Nat), basText first lc (ts ++ us) = basText first lc ts ++ basText (first && ts.isEmpty) (lc + ts.length) us
  | [], us, first, lc => by simp [basText]
  | t :: ts, us, first, lc => by
    show _ ++ basText false (lc + 1) (ts ++ us) = (_ ++ basText false (lc + 1) ts) ++ _
    rw [basText_append ts us]
    simp [Nat.add_assoc, Nat.add_comm 1]

/-- a text that is read as an assignment -/
def IsItem (t : Str) (a : Assign) : Prop := ∀ l l' : Nat, decide (l ≤ 6) = decide (l' ≤ 6) → Sets (t ++ sEnd) [a] l l'

theorem Sets.items : ∀ {ts : List Str} {as : List Assign}, List.Forall₂ IsItem ts as → ∀ lc, Sets (basText true lc ts ++ sEnd) as lc (lc + ts.length)
  | [], _, h, lc => by
    cases h
    exact Sets.empty lc
  | [t], _, h, lc => by
    cases h with
    | cons h1 h2 =>
      cases h2
      show Sets ([] ++ (if lc = 6 then sOffListing else []) ++ t ++ [] ++ sEnd) _ lc (lc + 1)
      rw [List.nil_append, List.append_nil, List.append_assoc]
      by_cases hl : lc = 6
      · subst hl
        rw [if_pos rfl]
        exact Sets.off.append (h1 7 7 rfl)
      · rw [if_neg hl]
        refine h1 lc (lc + 1) ?_
        rw [decide_eq_decide]
        omega
  | t :: u :: ts, _, h, lc => by
    cases h with
    | cons h1 h2 =>
      rename_i a as
      have ih := Sets.items h2 (lc + 1)
      have e : basText true lc (t :: u :: ts) ++ sEnd = ((if lc = 6 then sOffListing else []) ++ (t ++ sEnd)) ++ (basText true (lc + 1) (u :: ts) ++ sEnd) := by
        simp [basText]
      rw [e, show lc + (t :: u :: ts).length = lc + 1 + (u :: ts).length by simp; omega]
      refine Sets.append (as := [a]) ?_ ih
      by_cases hl : lc = 6
      · subst hl
        rw [if_pos rfl]
        exact Sets.off.append (h1 7 7 rfl)
      · rw [if_neg hl]
        refine h1 lc (lc + 1) ?_
        rw [decide_eq_decide]
        omega

/-- what is needed of a record -/
structure CanAssign (o : GOpt) (a : Gx) (dim : Nat) (r : RecOut Int) : Prop where
  vals : ∀ v ∈ r.vals, GValOk o a v
  len : r.vals.length = 5
  dim : r.key.length = dim
  keys : ∀ k ∈ r.key, ∃ s, QLabel a k s

theorem default_zero {typ : Nat} (ht : typ = 2 ∨ typ = 3) (user : Int) {k : Nat} (hk : k = 0 ∨ k = 1) : ((subType typ user).1.getD k Dbl.zero).fv = .fin 0 := by
  have h := defs_eq (typ := typ) (user := user) (k := k) (by omega) (by rw [if_neg (by omega)]; omega) (by omega)
  have h2 : defaultOf typ user k = some Dbl.zero := by
    rcases ht with rfl | rfl <;> rcases hk with rfl | rfl <;> rfl
  rw [h2] at h
  rw [← Option.some.inj h]
  decide +kernel

theorem qlabel_line {a : Gx} {k : Int} {s : Str} (h : QLabel a k s) : OneQuote s ∧ (10 : UInt8) ∉ s := by
  obtain ⟨⟨u, n, m, _, _, _, h4, _⟩, h6⟩ := h
  refine ⟨h6, fun hc => ?_⟩
  have := h4.1 10 hc
  revert this
  decide

theorem item_written {o : GOpt} (ho : BasOk o) {a : Gx} {n : Str} (hn : isGoodIdent n = true) {dim typ : Nat} (ht : typ = 2 ∨ typ = 3) {user : Int} {r : RecOut Int} (hr : CanAssign o a dim r) {ls : List Str}
    (hl : List.Forall₂ (QLabel a) r.key ls) {k : Nat} (hk : k = 0 ∨ k = 1) :
    ∃ ts as, List.Forall₂ IsItem ts as ∧ FieldSet o a n ls r k as ∧
      ∀ (g : Gx), View a g → ∀ first lc, bItem o g n dim typ (subType typ user).1 first lc r k = .ok (basText first lc ts, first && ts.isEmpty, lc + ts.length, 0) := by
  have hlt : k < r.vals.length := by rw [hr.len]; omega
  have hv := List.getElem?_eq_getElem hlt
  generalize r.vals[k] = v at hv
  have hvd : r.vals.getD k Dbl.zero = v := by
    rw [List.getD_eq_getElem?_getD, hv]
    rfl
  have hgv := hr.vals v (List.mem_of_getElem? hv)
  obtain ⟨q, hq, _⟩ := hgv.fin
  have hdef := default_zero ht user hk
  have hdrop : bDropped o typ (subType typ user).1 r.vals k = true ↔ o.filter = true ∧ v.fv = .fin 0 := by
    unfold bDropped
    rw [hvd, Bool.and_eq_true, Bool.and_eq_true, dblEq_iff hq hdef, hdef]
    have : (typ != dtEqu || (k != 2 && k != 3)) = true := by
      rcases hk with rfl | rfl <;> simp
    rw [this]
    simp
  by_cases hd : o.filter = true ∧ v.fv = .fin 0
  · refine ⟨[], [], .nil, ⟨v, hv, Or.inl ⟨hd, rfl⟩⟩, fun g hg first lc => ?_⟩
    unfold bItem
    rw [if_pos (hdrop.mpr hd)]
    simp [basText, Res.pure_eq]
  · obtain ⟨t, t1, t2, t3⟩ := bas_word ho hgv
    have hll : ls.length = dim := by rw [← hr.dim]; exact hl.length_eq.symm
    refine ⟨[32 :: itemText o n k ls t], [⟨n, valTyp k, ls, t⟩], .cons (fun l l' hl' => ?_) .nil, ⟨v, hv, Or.inr ⟨hd, t, t3, ?_⟩⟩, fun g hg first lc => ?_⟩
    · refine Sets.item ho hn ?_ t2 hl'
      intro s hs
      obtain ⟨i, hi⟩ := List.getElem?_of_mem hs
      obtain ⟨hi1, hi2⟩ := List.getElem?_eq_some_iff.mp hi
      have := (List.forall₂_iff_get.mp hl).2 i (by rw [hl.length_eq]; exact hi1) hi1
      rw [List.get_eq_getElem, List.get_eq_getElem, hi2] at this
      exact qlabel_line this
    · rcases hk with rfl | rfl <;> rfl
    · unfold bItem bText
      rw [if_neg (fun h => hd (hdrop.mp h)), gKeys_ok (hl.imp fun {_ _} h => hg.qlabel h), Res.bind_ok]
      dsimp only
      rw [if_pos (by rcases ht with rfl | rfl <;> simp [dtEqu, dtVar]), hvd, hg.wrVal, t1, Res.bind_ok, Res.pure_eq, Res.bind_ok, Res.pure_eq, Res.bind_ok]
      dsimp only
      rw [Res.pure_eq]
      simp [basText, itemText, hll]

theorem items_written {o : GOpt} (ho : BasOk o) {a : Gx} {n : Str} (hn : isGoodIdent n = true) {dim typ : Nat} (ht : typ = 2 ∨ typ = 3) {user : Int} {r : RecOut Int} (hr : CanAssign o a dim r) {ls : List Str}
    (hl : List.Forall₂ (QLabel a) r.key ls) : ∀ {ks : List Nat}, (∀ k ∈ ks, k = 0 ∨ k = 1) →
    ∃ ts ass, List.Forall₂ IsItem ts ass.flatten ∧ List.Forall₂ (FieldSet o a n ls r) ks ass ∧
      ∀ (g : Gx), View a g → ∀ first lc, bItems o g n dim typ (subType typ user).1 r first lc ks = .ok (basText first lc ts, first && ts.isEmpty, lc + ts.length, 0)
  | [], _ => ⟨[], [], .nil, .nil, fun g _ first lc => by simp [bItems, basText]⟩
  | k :: ks, h => by
    obtain ⟨ts, as, h1, h2, h3⟩ := item_written ho hn ht hr hl (user := user) (h k (by simp))
    obtain ⟨us, bss, i1, i2, i3⟩ := items_written ho hn ht hr hl (user := user) (ks := ks) (fun k hk => h k (by simp [hk]))
    refine ⟨ts ++ us, as :: bss, List.rel_append h1 i1, .cons h2 i2, fun g hg first lc => ?_⟩
    unfold bItems
    rw [h3 g hg, Res.bind_ok]
    dsimp only
    rw [i3 g hg, Res.bind_ok, Res.pure_eq, basText_append]
    simp [Nat.add_assoc, Bool.and_assoc]
    cases ts <;> simp

theorem rows_written {o : GOpt} (ho : BasOk o) {a : Gx} {n : Str} (hn : isGoodIdent n = true) {dim typ : Nat} (ht : typ = 2 ∨ typ = 3) {user : Int} :
    ∀ {outs : List (RecOut Int)}, (∀ r ∈ outs, CanAssign o a dim r) → ∃ ts ass, List.Forall₂ IsItem ts ass.flatten ∧ List.Forall₂ (RecordSet o a n typ) outs ass ∧
      ∀ (g gE : Gx), DeliversRaw g outs gE → g.fixed = a.fixed → g.nextAuto ≤ 0 → g.nrMapped = 0 → ∀ first lc f, outs.length < f →
        bRows o n dim typ (subType typ user).1 f g first lc = .ok (gE, basText first lc ts, lc + ts.length, 0)
  | [], _ => by
    refine ⟨[], [], .nil, .nil, fun g gE hd _ _ _ first lc f hf => ?_⟩
    obtain ⟨f, rfl⟩ : ∃ k, f = k + 1 := ⟨f - 1, by simp at hf; omega⟩
    cases hd with
    | done h1 =>
      unfold bRows
      rw [h1, Res.bind_ok]
      simp [basText, Res.pure_eq]
  | r :: outs, h => by
    have hr := h r (by simp)
    obtain ⟨ls, hls⟩ : ∃ ls, List.Forall₂ (QLabel a) r.key ls := by
      have := hr.keys
      generalize r.key = ks at this
      induction ks with
      | nil => exact ⟨[], .nil⟩
      | cons k ks ih =>
        obtain ⟨s, hs⟩ := this k (by simp)
        obtain ⟨ls, hl⟩ := ih fun k hk => this k (by simp [hk])
        exact ⟨s :: ls, .cons hs hl⟩
    obtain ⟨ts, as, h1, h2, h3⟩ := items_written ho hn ht hr hls (user := user) (ks := bFields typ) (by
      intro k hk
      unfold bFields at hk
      split at hk <;> simp at hk <;> omega)
    obtain ⟨us, bss, i1, i2, i3⟩ := rows_written ho hn ht (user := user) (outs := outs) fun r hr => h r (by simp [hr])
    refine ⟨ts ++ us, as.flatten :: bss, List.rel_append h1 i1, .cons ⟨ls, as, hls.imp fun {_ _} h => h.1, h2, rfl⟩ i2, fun g gE hd hfix hau hnr first lc f hf => ?_⟩
    obtain ⟨f, rfl⟩ : ∃ k, f = k + 1 := ⟨f - 1, by simp at hf; omega⟩
    cases hd with
    | next k1 k2 =>
      have fx := dataReadRaw_fix hau hnr k1
      have hfix' := fx.fix.trans hfix
      unfold bRows
      rw [k1, Res.bind_ok]
      dsimp only
      rw [h3 _ (View.of_fixed hfix'), Res.bind_ok]
      dsimp only
      rw [i3 _ gE k2 hfix' (by rw [RFix.auto fx.fix]; exact hau) ((congrArg Fixed.nrm fx.fix).trans hnr) _ _ f (by simp at hf; omega), Res.bind_ok, Res.pure_eq, basText_append]
      simp [Nat.add_assoc]

/-! ## a symbol, all symbols -/

/-- what is written for symbol `nr`, whatever was read before -/
def BasSym (o : GOpt) (z : Cz) (fuel : Nat) (a : Gx) (P : List Assign → Prop) (nr : Int) : Prop :=
  ∀ (g : Gx) (lc : Nat), g.fixed = a.fixed → Reading g.mode → ∃ g' t lc' as, writeBas o z fuel g lc nr = .ok (g', t, lc') ∧ g'.fixed = a.fixed ∧ Reading g'.mode ∧ Sets t as lc lc' ∧ P as

theorem bas_all {o : GOpt} {z : Cz} {fuel : Nat} {a : Gx} {P : Int → List Assign → Prop} : ∀ (k : Nat) (n : Int), (∀ i : Nat, i < k → BasSym o z fuel a (P (n + i)) (n + i)) → ∀ (g : Gx) (lc : Nat), g.fixed = a.fixed →
    Reading g.mode → ∃ g' t lc', ∃ ass : List (List Assign), allBas o z fuel k g lc n = .ok (g', t, lc') ∧ Sets t ass.flatten lc lc' ∧ ass.length = k ∧ ∀ i : Nat, i < k → ∃ as, ass[i]? = some as ∧ P (n + i) as := by
  intro k
  induction k with
  | zero =>
    intro n _ g lc _ _
    exact ⟨g, [], lc, [], rfl, Sets.nil lc, rfl, fun i hi => absurd hi (by omega)⟩
  | succ k ih =>
    intro n h g lc hg hm
    obtain ⟨g1, t, l1, as, h1, h2, h3, h4, h5⟩ := h 0 (by omega) g lc hg hm
    rw [show n + ((0 : Nat) : Int) = n by simp] at h1 h5
    obtain ⟨g2, t', l2, ass, i1, i2, i3, i4⟩ := ih (n + 1) (by
      intro i hi
      have := h (i + 1) (by omega)
      rw [show n + ((i + 1 : Nat) : Int) = n + 1 + i by push_cast; omega] at this
      exact this) g1 l1 h2 h3
    refine ⟨g2, t ++ t', l2, as :: ass, ?_, h4.append i2, by simp [i3], ?_⟩
    · unfold allBas
      rw [h1, Res.bind_ok]
      dsimp only
      rw [i1]
      rfl
    · intro i hi
      cases i with
      | zero => exact ⟨as, rfl, by rw [show n + ((0 : Nat) : Int) = n by simp]; exact h5⟩
      | succ i =>
        obtain ⟨st', e1, e2⟩ := i4 i (by omega)
        exact ⟨st', e1, by rw [show n + ((i + 1 : Nat) : Int) = n + 1 + i by push_cast; omega]; exact e2⟩

theorem Sets.dollar {w : Str} (h : w = wOnEmpty ∨ w = wOffEmpty) (lc : Nat) : Sets (w ++ [10]) [] lc lc := by
  refine ⟨1, by simp, fun f x => ?_⟩
  have hw : (10 : UInt8) ∉ w ∧ w.head? = some 36 := by rcases h with rfl | rfl <;> decide
  rw [List.append_assoc, List.singleton_append, unc_line hw.1 true (by intro _; rw [hw.2]; decide), dollar_line hw.1 hw.2, if_pos h]
  cases assigns f true (decide (lc ≤ 6)) (uncomment true false x) <;> rfl

theorem Sets.on (lc : Nat) : Sets (if lc > 6 then sOnListing else []) [] lc 0 := by
  by_cases h : lc > 6
  · rw [if_pos h]
    refine ⟨1, by decide, fun f x => ?_⟩
    rw [show sOnListing ++ x = wOnListing ++ 10 :: x from rfl, unc_line (by decide) true (by decide), dollar_line (by decide) (by decide), if_neg (by decide), if_neg (by decide), if_pos rfl]
    show assigns f true true _ = (assigns f true true _).map _
    cases assigns f true true (uncomment true false x) <;> rfl
  · rw [if_neg h]
    refine ⟨0, by decide, fun f x => ?_⟩
    rw [show decide (lc ≤ 6) = decide (0 ≤ 6) by rw [decide_eq_decide]; omega, List.nil_append, Nat.add_zero]
    cases assigns f true (decide (0 ≤ 6)) (uncomment true false x) <;> rfl

theorem Sets.basis {t : Str} {as : List Assign} (h : Sets t as 0 0) : basis t = some (as, true) := by
  obtain ⟨k, k1, k2⟩ := h
  have := k2 1 []
  rw [List.append_nil] at this
  refine assigns_mono (f := 1 + k) (this.trans ?_) (by omega)
  show some (as ++ [], true) = _
  rw [List.append_nil]

/-- a variable or an equation -/
theorem bas_sym {o : GOpt} (ho : BasOk o) {z : Cz} (hz : z.Good) {a : Gx} (ha : Fresh a) {nr : Int} {s : Sym} (hs : a.symAt nr = some s) (ht : s.typ = 2 ∨ s.typ = 3) (hn : isGoodIdent s.name = true)
    {cs : List Str} (hc : s.comments = cs.map some) (hln : ∀ c ∈ cs, (10 : UInt8) ∉ c) {d : SymDesc} {xs : List RawEntry} (h : HoldsSym z a nr d xs) {outs : List (RecOut Int)}
    (hou : Delivered a.rsv (acrOf a) d xs outs) (hr : ∀ r ∈ outs, ∀ v ∈ r.vals, GValOk o a v) {fuel : Nat} (hf : outs.length < fuel) (hfc : cs.length < fuel) : BasSym o z fuel a (SymbolSet o a s outs) nr := by
  intro g lc hgf hgm
  obtain ⟨k1, k2, k3⟩ := decl_target hs (by omega) h
  obtain ⟨_, ld, tg⟩ := h.sym
  obtain ⟨outs', o1', ⟨g1, g2, s1, s2, s3, _⟩, _⟩ := (loaded_idle ld hgf).reads hz (targets_fixed tg hgf)
  have hrsv : (idle g).rsv = a.rsv := congrArg Fixed.rsv hgf
  have hacf : acrOf (idle g) = acrOf a := by
    have e1 : (idle g).acros = a.acros := congrArg Fixed.acros hgf
    have e2 : (idle g).acrNaN = a.acrNaN := congrArg Fixed.nan hgf
    unfold acrOf plainRemap
    have e3 : (idle g).sv = a.sv := congrArg Fixed.sv hgf
    simp only [e1, e2, e3]
  rw [hrsv, hacf] at o1'
  have := Delivered.unique ld.sv hou o1'
  subst this
  have hgn : g.nrMapped = 0 := (congrArg Fixed.nrm hgf).trans ha.nrm
  have hga : g.nextAuto ≤ 0 := by rw [show g.nextAuto = a.nextAuto from congrArg Fixed.auto hgf]; exact ha.auto
  rw [← rawStart_idle hgm hgn] at s1
  have f1 := (dataReadRawStart_fix hga hgn s1).1.trans hgf
  have ha1 : g1.nextAuto ≤ 0 := by rw [show g1.nextAuto = a.nextAuto from congrArg Fixed.auto f1]; exact ha.auto
  have hn1 : g1.nrMapped = 0 := (congrArg Fixed.nrm f1).trans ha.nrm
  have f2 := delivers_fixed s2 ha1 hn1
  have hn2 : g2.nrMapped = 0 := (congrArg Fixed.nrm f2).trans hn1
  have hdone := dataReadDone_plain (g := g2) (by rw [s3]; simp) hn2
  obtain ⟨hall, hlen⟩ := vals_length h hou
  have hsg : g.symAt nr = some s := by
    unfold Gx.symAt at hs ⊢
    rw [show g.names = a.names from congrArg Fixed.names hgf]
    exact hs
  have hnr : nr ≠ 0 := by
    rintro rfl
    unfold Gx.symAt at hs
    split at hs
    · rw [if_neg (by omega)] at hs
      cases hs
    · cases hs
  have hi : symbolInfo g nr = ⟨true, s.name, s.dim, s.typ⟩ := by
    unfold symbolInfo
    rw [if_neg hnr, hsg]
  have hx : symbolInfoX g nr = ⟨true, if s.dim = 0 then 1 else s.dataCount, s.userInfo, s.expl⟩ := by
    unfold symbolInfoX
    rw [if_neg hnr, hsg]
  have htn : ¬ (s.typ = dtSet ∨ s.typ = dtPar) := by
    unfold dtSet dtPar
    omega
  by_cases h0 : (if s.dim = 0 then 1 else s.dataCount) = 0
  · refine ⟨g, [], lc, [], ?_, hgf, hgm, Sets.nil lc, ?_⟩
    · unfold writeBas
      rw [hi, hx]
      dsimp only
      rw [if_neg htn, if_pos h0]
      rfl
    · have : outs = [] := by
        apply List.length_eq_zero_iff.mp
        split at h0
        · exact absurd h0 (by decide)
        · omega
      subst this
      unfold SymbolSet
      rw [if_pos (show s.typ = dtVar ∨ s.typ = dtEqu from ht)]
      exact ⟨[], .nil, rfl⟩
  · obtain ⟨ts, ass, r1, r2, r3⟩ := rows_written ho hn ht (user := s.userInfo) (a := a) (dim := s.dim.toNat) (outs := outs) (fun r hr' => by
      obtain ⟨q1, q2, q3⟩ := hall r hr'
      refine ⟨hr r hr', ?_, by rw [q2, k2], fun k hk => label_quote ha (q3 k hk)⟩
      rw [q1, k1]
      rcases ht with h | h <;> rw [h] <;> rfl)
    have hcom : comments g nr fuel 1 = .ok (cs.map fun s => [42, 32] ++ s ++ [10]).flatten := by
      have := comments_ok hsg hc fuel 0 (by omega) (by omega)
      simpa using this
    have hrow := r3 g1 g2 s2 f1 ha1 hn1 true lc fuel hf
    refine ⟨{ g2 with sort := none, cur := .none, mode := .rInit }, (cs.map fun s => [42, 32] ++ s ++ [10]).flatten ++ (basText true lc ts ++ sEnd), lc + ts.length, ass.flatten, ?_, (f2.trans f1 : g2.fixed = a.fixed), ?_, ?_, ?_⟩
    rotate_left
    · exact Or.inl rfl
    · exact (Sets.comments hln lc).append (Sets.items r1 lc)
    · unfold SymbolSet
      rw [if_pos (show s.typ = dtVar ∨ s.typ = dtEqu from ht)]
      exact ⟨ass, r2, rfl⟩
    · unfold writeBas
      rw [hi, hx]
      dsimp only
      rw [if_neg htn, if_neg h0, hcom, Res.bind_ok, s1, Res.bind_ok]
      dsimp only
      rw [hrow, Res.bind_ok]
      dsimp only
      rw [hdone, Res.bind_ok]
      dsimp only
      rw [Res.pure_eq]
      simp [show badLine 0 = [] from rfl]

/-- C82 for files of the library without acronyms, in whatever way they were written: gdxdump with Format=gamsbas writes a program, and a reader of GAMS finds in it, in the order of the file, the assignments of the levels
    and marginals of the variables and of the marginals of the equations, and nothing else; at the end the listing is on. What is missing: files with acronyms (the first declaration of an acronym has no name, C71),
    comments with a newline, aliases of a set without index (`C82_alias0`); that aliases have no records of their own is an assumption. -/
theorem C82_own_partial {o : GOpt} (ho : BasOk o) {e : Env} {z : Cz} (hz : z.Good) {g : Gx} {syms : List Sym} {R : Nat → List RawEntry} {f : List UInt8} (h : OwnFile e z g syms R f)
    (hacr : g.acros = some [])
    (hsy : ∀ (n : Nat) (s : Sym), syms[n]? = some s → (s.typ ≤ 3 ∧ ∃ cs : List Str, s.comments = cs.map some ∧ ∀ c ∈ cs, (10 : UInt8) ∉ c) ∨ (s.typ = dtAlias ∧ s.dim ≠ 0 ∧ s.dataCount = 0)) :
    ∃ a, ∃ outs : Nat → List (RecOut Int), openRead z Gx.new (.content f) = .ok (a, (true, 0)) ∧
      (∀ (n : Nat) (s : Sym), syms[n]? = some s → s.typ = 2 ∨ s.typ = 3 → Delivered SVTab.default (acrOf a) (contentOf syms R ((n : Int) + 1)).1 (contentOf syms R ((n : Int) + 1)).2 (outs n)) ∧
      ((∀ (n : Nat) (s : Sym), syms[n]? = some s → s.typ = 2 ∨ s.typ = 3 → ∀ r ∈ outs n, ∀ v ∈ r.vals, ∃ q, v.fv = .fin q ∧ (q ≠ 0 → Nearest15 (o.dtoa v) q)) →
       ∀ fuel, (∀ (n : Nat) (s : Sym), syms[n]? = some s → s.typ = 2 ∨ s.typ = 3 → (outs n).length < fuel ∧ s.comments.length < fuel) →
        ∃ g' t, ∃ ass : List (List Assign), dumpBas o z fuel a = .ok (g', t) ∧ basis t = some (ass.flatten, true) ∧ ass.length = syms.length ∧
          ∀ (n : Nat) (s : Sym), syms[n]? = some s → ∃ as, ass[n]? = some as ∧ SymbolSet o a s (outs n) as) := by
  obtain ⟨a, P, dl, a1, _, _, a4, a5, b2⟩ := own_domains hz h
  have fi := h.hist.fine hz
  have hsyms := fi.inv.tab.syms syms h.full.names
  have hsv := b2.sv
  obtain ⟨al, al1, al2⟩ := b2.acros
  rw [hacr] at al1
  cases al1
  have hat : ∀ {k : Nat} {y : Sym}, syms[k]? = some y → a.symAt ((k : Int) + 1) = some y.reopened := by
    intro k y hk
    have hlt := (List.getElem?_eq_some_iff.mp hk).1
    unfold Gx.symAt
    rw [a5]
    simp only [List.length_map]
    rw [if_pos (by omega), show ((k : Int) + 1 - 1).toNat = k by omega, List.getElem?_map, hk]
    rfl
  have hex : ∀ n : Nat, ∃ outs, ∀ s, syms[n]? = some s → Delivered SVTab.default (acrOf a) (contentOf syms R ((n : Int) + 1)).1 (contentOf syms R ((n : Int) + 1)).2 outs := by
    intro n
    cases hs : syms[n]? with
    | none => exact ⟨[], fun s hc => by cases hc⟩
    | some s =>
      obtain ⟨_, ld, tg⟩ := (a4.holds ((n : Int) + 1) (by rw [hat hs]; rfl)).sym
      obtain ⟨outs, o1, _⟩ := ld.reads hz tg
      exact ⟨outs, fun _ _ => by rw [← hsv.2]; exact o1⟩
  choose outs hout using hex
  refine ⟨a, outs, a1, fun n s hs _ => hout n s hs, fun hval fuel hfu => ?_⟩
  have hw : ∀ i : Nat, i < syms.length → BasSym o z fuel a ((fun nr as => ∀ s, syms[(nr - 1).toNat]? = some s → SymbolSet o a s (outs (nr - 1).toNat) as) (1 + (i : Int))) (1 + (i : Int)) := by
    intro i hi
    have hs := List.getElem?_eq_getElem hi
    generalize syms[i] = s at hs
    have hi1 : (1 + (i : Int) - 1).toNat = i := by omega
    rw [show 1 + (i : Int) = (i : Int) + 1 by omega] at hi1 ⊢
    dsimp only
    rw [hi1]
    have hok := hsyms.each i s hs
    by_cases ht : s.typ = 2 ∨ s.typ = 3
    · rcases hsy i s hs with ⟨_, cs, c1, c2⟩ | ⟨h1, _⟩
      · obtain ⟨f1, f2⟩ := hfu i s hs ht
        have key := bas_sym ho hz a4.fresh (hat hs) ht hok.good c1 c2 (a4.holds ((i : Int) + 1) (by rw [hat hs]; rfl)) (outs := outs i) (by rw [hsv.2]; exact hout i s hs)
          (fun r hr v hv => by
            obtain ⟨q, q1, q2⟩ := hval i s hs ht r hr v hv
            exact ⟨acro_word al2 (by intro x hx; cases hx) q1, q, q1, fun _ => q2⟩) f1 (by
            rw [c1, List.length_map] at f2
            exact f2)
        intro g lc hg hm
        obtain ⟨g', t, lc', as, k1, k2, k3, k4, k5⟩ := key g lc hg hm
        refine ⟨g', t, lc', as, k1, k2, k3, k4, fun s' hs' => ?_⟩
        rw [hs] at hs'
        cases hs'
        exact k5
      · exfalso
        rw [h1] at ht
        revert ht
        decide
    · intro g lc hg hm
      refine ⟨g, [], lc, [], ?_, hg, hm, Sets.nil lc, fun s' hs' => ?_⟩
      · have hsg : g.symAt ((i : Int) + 1) = some s.reopened := by
          have := hat hs
          unfold Gx.symAt at this ⊢
          rw [show g.names = a.names from congrArg Fixed.names hg]
          exact this
        have hi : symbolInfo g ((i : Int) + 1) = ⟨true, s.name, s.dim, s.typ⟩ := by
          unfold symbolInfo
          rw [if_neg (by omega), hsg]
          rfl
        have hx : symbolInfoX g ((i : Int) + 1) = ⟨true, if s.dim = 0 then 1 else s.dataCount, s.userInfo, s.expl⟩ := by
          unfold symbolInfoX
          rw [if_neg (by omega), hsg]
          rfl
        unfold writeBas
        rw [hi, hx]
        dsimp only
        rcases hsy i s hs with ⟨h1, _⟩ | ⟨h1, h2, h3⟩
        · rw [if_pos (by unfold dtSet dtPar; omega)]
          rfl
        · rw [if_neg (by rw [h1]; decide), if_neg h2, if_pos h3]
          rfl
      · rw [hs] at hs'
        cases hs'
        unfold SymbolSet
        rw [if_neg (show ¬ (s.typ = dtVar ∨ s.typ = dtEqu) from ht)]
  obtain ⟨g', t, lc, ass, r1, r2, r3, r4⟩ := bas_all (P := fun nr as => ∀ s, syms[(nr - 1).toNat]? = some s → SymbolSet o a s (outs (nr - 1).toNat) as) syms.length 1 hw a 0 rfl (Or.inl a4.fresh.mode)
  refine ⟨g', sOnEmpty ++ t ++ sOffEmpty ++ (if lc > 6 then sOnListing else []), ass, ?_, ?_, r3, ?_⟩
  · have hn : (systemInfo a).1.toNat = syms.length := by
      unfold systemInfo
      rw [a5]
      simp
    have hac : writeAcronyms a = .ok [] := by
      unfold writeAcronyms acronymCount
      rw [al2]
      rfl
    unfold dumpBas
    rw [hac, Res.bind_ok, hn, r1, Res.bind_ok]
    rfl
  · apply Sets.basis
    have h1 : Sets sOnEmpty [] 0 0 := Sets.dollar (w := wOnEmpty) (Or.inl rfl) 0
    have h2 : Sets sOffEmpty [] lc lc := (Sets.newline lc).append (Sets.dollar (w := wOffEmpty) (Or.inr rfl) lc)
    have := ((h1.append r2).append h2).append (Sets.on lc)
    simpa using this
  · intro n s hs
    have hlt := (List.getElem?_eq_some_iff.mp hs).1
    obtain ⟨st, e1, e2⟩ := r4 n hlt
    refine ⟨st, e1, ?_⟩
    have hi1 : (1 + (n : Int) - 1).toNat = n := by omega
    have := e2 s (by rw [hi1]; exact hs)
    rw [hi1] at this
    exact this

/-- C82 with the option Symb: the assignments of this symbol only. What is missing: as in `C82_own_partial`. -/
theorem C82_one_partial {o : GOpt} (ho : BasOk o) {e : Env} {z : Cz} (hz : z.Good) {g : Gx} {syms : List Sym} {R : Nat → List RawEntry} {f : List UInt8} (h : OwnFile e z g syms R f)
    (hacr : g.acros = some []) {n : Nat} {s : Sym} (hs : syms[n]? = some s)
    (hsy : (s.typ ≤ 3 ∧ ∃ cs : List Str, s.comments = cs.map some ∧ ∀ c ∈ cs, (10 : UInt8) ∉ c) ∨ (s.typ = dtAlias ∧ s.dim ≠ 0 ∧ s.dataCount = 0)) :
    ∃ a, ∃ outs : List (RecOut Int), openRead z Gx.new (.content f) = .ok (a, (true, 0)) ∧
      Delivered SVTab.default (acrOf a) (contentOf syms R ((n : Int) + 1)).1 (contentOf syms R ((n : Int) + 1)).2 outs ∧
      ((s.typ = 2 ∨ s.typ = 3 → ∀ r ∈ outs, ∀ v ∈ r.vals, ∃ q, v.fv = .fin q ∧ (q ≠ 0 → Nearest15 (o.dtoa v) q)) →
       ∀ fuel, (s.typ = 2 ∨ s.typ = 3 → outs.length < fuel ∧ s.comments.length < fuel) →
        ∃ g' t as, dumpBasOne o z fuel a ((n : Int) + 1) = .ok (g', t) ∧ basis t = some (as, true) ∧ SymbolSet o a s outs as) := by
  obtain ⟨a, P, dl, a1, _, _, a4, a5, b2⟩ := own_domains hz h
  have fi := h.hist.fine hz
  have hsyms := fi.inv.tab.syms syms h.full.names
  have hsv := b2.sv
  obtain ⟨al, al1, al2⟩ := b2.acros
  rw [hacr] at al1
  cases al1
  have hat : a.symAt ((n : Int) + 1) = some s.reopened := by
    have hlt := (List.getElem?_eq_some_iff.mp hs).1
    unfold Gx.symAt
    rw [a5]
    simp only [List.length_map]
    rw [if_pos (by omega), show ((n : Int) + 1 - 1).toNat = n by omega, List.getElem?_map, hs]
    rfl
  have hex : ∃ outs, Delivered SVTab.default (acrOf a) (contentOf syms R ((n : Int) + 1)).1 (contentOf syms R ((n : Int) + 1)).2 outs := by
    obtain ⟨_, ld, tg⟩ := (a4.holds ((n : Int) + 1) (by rw [hat]; rfl)).sym
    obtain ⟨outs, o1, _⟩ := ld.reads hz tg
    exact ⟨outs, by rw [← hsv.2]; exact o1⟩
  obtain ⟨outs, hout⟩ := hex
  refine ⟨a, outs, a1, hout, fun hval fuel hfu => ?_⟩
  have hok := hsyms.each n s hs
  have key : BasSym o z fuel a (SymbolSet o a s outs) ((n : Int) + 1) := by
    by_cases ht : s.typ = 2 ∨ s.typ = 3
    · rcases hsy with ⟨_, cs, c1, c2⟩ | ⟨h1, _⟩
      · obtain ⟨f1, f2⟩ := hfu ht
        exact bas_sym ho hz a4.fresh hat ht hok.good c1 c2 (a4.holds ((n : Int) + 1) (by rw [hat]; rfl)) (outs := outs) (by rw [hsv.2]; exact hout)
          (fun r hr v hv => by
            obtain ⟨q, q1, q2⟩ := hval ht r hr v hv
            exact ⟨acro_word al2 (by intro x hx; cases hx) q1, q, q1, fun _ => q2⟩) f1 (by
            rw [c1, List.length_map] at f2
            exact f2)
      · exfalso
        rw [h1] at ht
        revert ht
        decide
    · intro g lc hg hm
      refine ⟨g, [], lc, [], ?_, hg, hm, Sets.nil lc, ?_⟩
      · have hsg : g.symAt ((n : Int) + 1) = some s.reopened := by
          unfold Gx.symAt at hat ⊢
          rw [show g.names = a.names from congrArg Fixed.names hg]
          exact hat
        have hi : symbolInfo g ((n : Int) + 1) = ⟨true, s.name, s.dim, s.typ⟩ := by
          unfold symbolInfo
          rw [if_neg (by omega), hsg]
          rfl
        have hx : symbolInfoX g ((n : Int) + 1) = ⟨true, if s.dim = 0 then 1 else s.dataCount, s.userInfo, s.expl⟩ := by
          unfold symbolInfoX
          rw [if_neg (by omega), hsg]
          rfl
        unfold writeBas
        rw [hi, hx]
        dsimp only
        rcases hsy with ⟨h1, _⟩ | ⟨h1, h2, h3⟩
        · rw [if_pos (by unfold dtSet dtPar; omega)]
          rfl
        · rw [if_neg (by rw [h1]; decide), if_neg h2, if_pos h3]
          rfl
      · unfold SymbolSet
        rw [if_neg (show ¬ (s.typ = dtVar ∨ s.typ = dtEqu) from ht)]
  obtain ⟨g', t, lc, as, r1, _, _, r2, r3⟩ := key a 0 rfl (Or.inl a4.fresh.mode)
  refine ⟨g', t ++ [10] ++ (if lc > 6 then sOnListing else []), as, ?_, ?_, r3⟩
  · have hac : writeAcronyms a = .ok [] := by
      unfold writeAcronyms acronymCount
      rw [al2]
      rfl
    unfold dumpBasOne
    rw [hac, Res.bind_ok, r1, Res.bind_ok]
    rfl
  · apply Sets.basis
    have := (r2.append (Sets.newline lc)).append (Sets.on lc)
    simpa using this

/-! ## examples -/

/-- what gdxdump writes with Format=gamsbas for the file that the calls write, and the assignments that are read from it -/
def basOf (o : GOpt) (cs : List Call) : Res (Str × Option (List Assign × Bool)) := do
  let f ← fileOf cs
  let (a, _) ← openRead Cz.id Gx.new (.content f)
  let (_, t) ← dumpBas o Cz.id 100 a
  pure (t, basis t)

/-- the file of C80 with the variable `x(i,*)` and the equation `e(*)`, with a comment -/
def exBas : List Call := exDumpAll ++ [.strStart [120] [] 2 2 5, .writeStr [[97, 32, 98], [97, 32, 98]] [0x3fb999999999999a, 0x3ff8000000000000, 0, 0, 0x3ff0000000000000],
  .writeStr [[97, 32, 98], [120]] [0x3ff8000000000000, 0x3ff8000000000000, 0, 0, 0x3ff0000000000000], .writeStr [[99, 39, 100], [120]] [0, 0x3fb999999999999a, 0, 0, 0x3ff0000000000000], .writeDone,
  .strStart [101] [] 1 3 53, .writeStr [[99, 39, 100]] [0x3ff0000000000000, 0x3ff8000000000000, 0, 0, 0x3ff0000000000000],
  .writeStr [[120]] [0x3ff0000000000000, SVTab.default.eps, 0, 0, 0x3ff0000000000000], .writeDone, .addComment 8 [110, 111]]

example : BasOk exGOpt := ⟨Or.inl rfl, rfl, fun t h => (by unfold UserWord at h; simp [exGOpt] at h), fun t h => (by cases h)⟩

/-- the listing is switched off before the seventh value and on at the end -/
example : basOf exGOpt exBas = .ok (sOnEmpty ++ DiffOpts.str " v.L  = 1.5 ;\n x.L ('a b'.'a b') = 0.1 ;\n x.M ('a b'.'a b') = 1.5 ;\n x.L ('a b'.'x') = 1.5 ;\n x.M ('a b'.'x') = 1.5 ;\n x.M (\"c'd\".'x') = 0.1 ;\n* no\n" ++
    sOffListing ++ DiffOpts.str " e.M (\"c'd\") = 1.5 ;\n e.M ('x') = Eps ;\n" ++ sOffEmpty ++ sOnListing,
    some ([⟨[118], [76], [], DiffOpts.str "1.5"⟩, ⟨[120], [76], [[97, 32, 98], [97, 32, 98]], DiffOpts.str "0.1"⟩, ⟨[120], [77], [[97, 32, 98], [97, 32, 98]], DiffOpts.str "1.5"⟩,
      ⟨[120], [76], [[97, 32, 98], [120]], DiffOpts.str "1.5"⟩, ⟨[120], [77], [[97, 32, 98], [120]], DiffOpts.str "1.5"⟩, ⟨[120], [77], [[99, 39, 100], [120]], DiffOpts.str "0.1"⟩,
      ⟨[101], [77], [[99, 39, 100]], DiffOpts.str "1.5"⟩, ⟨[101], [77], [[120]], DiffOpts.str "Eps"⟩], true)) := by decide +kernel

/-- the same for one symbol -/
def basOneOf (o : GOpt) (cs : List Call) (nr : Int) : Res (Str × Option (List Assign × Bool)) := do
  let f ← fileOf cs
  let (a, _) ← openRead Cz.id Gx.new (.content f)
  let (_, t) ← dumpBasOne o Cz.id 100 a nr
  pure (t, basis t)

example : basOneOf exGOpt exBas 8 = .ok (DiffOpts.str "* no\n e.M (\"c'd\") = 1.5 ;\n e.M ('x') = Eps ;\n\n",
    some ([⟨[101], [77], [[99, 39, 100]], DiffOpts.str "1.5"⟩, ⟨[101], [77], [[120]], DiffOpts.str "Eps"⟩], true)) := by decide +kernel

/-- C82 fails for the alias of a set without index: ` ;` is written as if it were a variable. It is read as an empty statement. -/
theorem C82_alias0 : basOf exGOpt exAlias0 = .ok (sOnEmpty ++ sEnd ++ sOffEmpty, some ([], true)) := by decide +kernel

/-- the assignments only -/
def basReadOf (o : GOpt) (cs : List Call) : Res (Option (List Assign × Bool)) := do
  let (_, r) ← basOf o cs
  pure r

/-- C82 fails with DecimalSep=comma, which gdxdump accepts: `1,5` is not a number. -/
theorem C82_sep : basReadOf { exGOpt with sep := 44 } exGams = .ok none := by decide +kernel

/-- C82 fails with Delim=semicolon, which gdxdump accepts: the labels are separated by the end of the statement. -/
theorem C82_delim : basReadOf { exGOpt with delim := 59 } exBas = .ok none := by decide +kernel

#print axioms C82_own_partial
#print axioms C82_one_partial
#print axioms C82_alias0
#print axioms C82_sep
#print axioms C82_delim

end Gdx.Props
