import Verif.Proofs.MergeOpts

/-! C75: gdxmerge works with the options and the input files that are given, and stops with an error if the options contradict each other. -/

namespace Gdx.MergeOpts
open Gdx CmdLine CmdPar Spec
open Gdx.DiffOpts (str Last IdIn InName)

/-- parameters whose meaning is described: options of the usage text; `big` has a number, `strict` is given once, the name of the output file fits into its buffer -/
structure Valid (l : List (Int × Text)) : Prop where
  some' : l ≠ []
  key : ∀ p ∈ l, p.1 = 0 ∨ p.1 = -2 ∨ (1 ≤ p.1 ∧ p.1 ≤ 5)
  big : ∀ s, (3, s) ∈ l → s.length ≤ 255 ∧ ValInt.NoSmall s ∧ ∃ v, ValInt.IntText s v ∧ ValInt.InInt v
  strict : ∀ a b c s t, l ≠ a ++ (4, s) :: b ++ (4, t) :: c
  out : ∀ s, (5, s) ∈ l → s ≠ [] ∧ s.length ≤ 251

theorem IntText.ne {s : Text} {v : Int} (h : ValInt.IntText s v) : s ≠ [] := by
  obtain ⟨k, t, rfl, h⟩ := h
  have : t ≠ [] := by
    cases h with
    | none h => obtain ⟨c, r, e, _⟩ := ValInt.body_head h; rw [e]; simp
    | plus h => simp
    | minus h => simp
  simp [this]

theorem Valid.plain {l : List (Int × Text)} (h : Valid l) : Plain l :=
  ⟨h.key, fun s hs => by
    obtain ⟨h1, h2, v, h3, h4⟩ := h.big s hs
    exact ⟨v, IntText.ne h3, ValInt.C76_number_partial h3 h4 h1 h2⟩, fun s hs => (h.out s hs).1⟩

theorem two_iff (l : List Param) (v : Int) : 2 ≤ (valuesOf l v).length ↔ ∃ a b c s t, l = a ++ (v, s) :: b ++ (v, t) :: c := by
  constructor
  · induction l with
    | nil => intro h; simp [valuesOf] at h
    | cons p l ih =>
      intro h
      by_cases e : p.1 = v
      · have h' : 1 ≤ (valuesOf l v).length := by
          simp [valuesOf, e] at h ⊢; omega
        have hne : (l.filter fun p => p.1 = v) ≠ [] := by
          intro h0; simp [valuesOf, h0] at h'
        obtain ⟨q, hq⟩ := List.exists_mem_of_ne_nil _ hne
        rw [List.mem_filter] at hq
        obtain ⟨b, c, rfl⟩ := List.append_of_mem hq.1
        have hqv : q.1 = v := by simpa using hq.2
        obtain ⟨p1, p2⟩ := p
        obtain ⟨q1, q2⟩ := q
        dsimp only at e hqv
        subst e hqv
        exact ⟨[], b, c, p2, q2, rfl⟩
      · obtain ⟨a, b, c, s, t, rfl⟩ := ih (by simpa [valuesOf, e] using h)
        exact ⟨p :: a, b, c, s, t, rfl⟩
  · rintro ⟨a, b, c, s, t, rfl⟩
    simp [valuesOf]; omega

theorem mem_valuesOf {l : List Param} {v : Int} {s : Str} : s ∈ valuesOf l v ↔ (v, s) ∈ l := by
  unfold valuesOf
  rw [List.mem_map]
  constructor
  · rintro ⟨⟨k, s'⟩, h, rfl⟩
    rw [List.mem_filter] at h
    have : k = v := by simpa using h.2
    exact this ▸ h.1
  · intro h; exact ⟨(v, s), List.mem_filter.mpr ⟨h, by simp⟩, rfl⟩

theorem inName_iff (s n : Str) : InName (fun _ => false) s n ↔ n = if hasExt s then s else s ++ DiffOpts.gdx := by
  unfold InName DiffOpts.Extended
  rw [← Ext_iff]
  by_cases h : hasExt s = true
  · simp [h]
  · simp [h, DiffOpts.gdx]

theorem out_is {l : List Param} (h : (valuesOf l 5).length ≤ 1) (h0 : ∀ s, (5, s) ∈ l → s ≠ []) (n : Str) :
    OutIs l n ↔ n = outName ((valuesOf l 5).head?.getD []) := by
  cases e : valuesOf l 5 with
  | nil =>
    have hg : ∀ s, (5, s) ∉ l := fun s hs => by have := mem_valuesOf.mpr hs; rw [e] at this; simp at this
    constructor
    · rintro (⟨_, h⟩ | ⟨s, hs, _⟩)
      · exact h
      · exact absurd hs (hg s)
    · intro h; exact .inl ⟨fun ⟨s, hs⟩ => hg s hs, h⟩
  | cons s t =>
    rw [e] at h
    have ht : t = [] := by simpa using h
    subst ht
    have hs : (5, s) ∈ l := mem_valuesOf.mp (by rw [e]; simp)
    have hu : ∀ s', (5, s') ∈ l → s' = s := fun s' hs' => by have := mem_valuesOf.mpr hs'; rw [e] at this; simpa using this
    have ho : outName ([s].head?.getD []) = if hasExt s then s else s ++ DiffOpts.gdx := by simp [outName, h0 s hs]; rfl
    rw [ho, ← inName_iff]
    constructor
    · rintro (⟨h, _⟩ | ⟨s', hs', h⟩)
      · exact absurd ⟨s, hs⟩ h
      · rwa [hu s' hs'] at h
    · intro h; exact .inr ⟨s, hs, h⟩

theorem strict_is {l : List Param} (h : ∀ a b c s t, l ≠ a ++ (4, s) :: b ++ (4, t) :: c) : (∃ s, (4, s) ∈ l ∧ SameNoCase s (str "true")) ↔ StrictIs l := by
  constructor
  · rintro ⟨s, hs, ht⟩
    obtain ⟨a, b, rfl⟩ := List.append_of_mem hs
    refine ⟨s, ⟨a, b, rfl, ?_⟩, ht⟩
    rintro ⟨k, t⟩ hp rfl
    obtain ⟨b1, b2, rfl⟩ := List.append_of_mem hp
    exact h a b1 b2 s t (by simp)
  · rintro ⟨s, ⟨a, b, rfl, _⟩, ht⟩
    exact ⟨s, by simp, ht⟩

theorem ne_nil_iff {α : Type} (l : List α) : l ≠ [] ↔ ∃ x, x ∈ l := by
  cases l with
  | nil => simp
  | cons x l => simp

theorem outName_len {s : Str} (h : s.length ≤ 251) : (outName s).length ≤ 255 := by
  have h1 : (str "merged.gdx").length = 10 := by decide +kernel
  have h2 : DiffOpts.gdx.length = 4 := by decide +kernel
  unfold outName
  split
  · omega
  split
  · omega
  · simp; omega

/-- an error if and only if the options are in contradiction or, in strict mode, a file is in the way or missing; otherwise the program works with the options and the files -/
theorem C75_options_partial (sys : Sys) {l : List (Int × Text)} (h : Valid l) (ht : Tidy sys (words l)) :
    (Bad sys l ∧ ∃ d b, start sys l = .ok (.fail d b)) ∨ (¬ Bad sys l ∧ ∃ c fs, start sys l = .ok (.run c fs) ∧ Takes l c ∧ Uses sys c fs) := by
  obtain ⟨c, b, hst, s⟩ := steps_ok l {} h.plain
  have ho : outs {} l = valuesOf l 5 := by simp [outs]
  have hgp : getParams l = .ok ({ c with out := outName c.out }, b) := by
    unfold getParams
    rw [if_neg h.some', hst]; rfl
  have hout := s.out
  have hok := s.ok
  rw [ho] at hout hok
  by_cases h2 : 2 ≤ (valuesOf l 5).length
  · obtain ⟨x, y, z, u, w, e⟩ := (two_iff l 5).mp h2
    refine .inl ⟨.output e, false, false, ?_⟩
    have hb : b = false := by
      rw [← Bool.not_eq_true, hok]; omega
    unfold start
    rw [hgp, hb]; rfl
  · have h1 : (valuesOf l 5).length ≤ 1 := by omega
    have hb : b = true := hok.mpr h1
    have hOut := out_is h1 (fun s hs => (h.out s hs).1)
    rw [← hout] at hOut
    have hlen : (outName c.out).length ≤ 255 := by
      apply outName_len
      rw [hout]
      cases e : valuesOf l 5 with
      | nil => simp
      | cons s t => exact (h.out s (mem_valuesOf.mp (by rw [e]; simp))).2
    have hS : c.strict = true ↔ StrictIs l := by
      rw [s.strict, ← strict_is h.strict]; simp
    have hi : c.incl ≠ [] ↔ ∃ x, IdIn l 1 x := by
      rw [s.incl, List.nil_append, ne_nil_iff]
      simp only [mem_allIdents]
    have he : c.excl ≠ [] ↔ ∃ x, IdIn l 2 x := by
      rw [s.excl, List.nil_append, ne_nil_iff]
      simp only [mem_allIdents]
    have hp : c.pats = words l := by rw [s.pats]; rfl
    have hT : Takes l { c with out := outName c.out } := by
      refine ⟨?_, ?_, ?_, hS, (hOut _).mpr rfl, hp⟩
      · intro x; show x ∈ c.incl ↔ _; rw [s.incl, List.nil_append, mem_allIdents]
      · intro x; show x ∈ c.excl ↔ _; rw [s.excl, List.nil_append, mem_allIdents]
      · rcases s.big with ⟨b1, b2⟩ | ⟨x, v, b1, b2, b3⟩
        · exact .inl ⟨b1, b2⟩
        · obtain ⟨c1, c2, w, c3, c4⟩ := h.big x (by obtain ⟨p, q, e, _⟩ := b1; rw [e]; simp)
          have := ValInt.C76_number_partial c3 c4 c1 c2
          rw [b2] at this
          cases this
          exact .inr ⟨x, _, b1, c3, b3⟩
    unfold start
    rw [hgp, hb]
    simp only [Res.bind_ok, Bool.not_true, Bool.false_eq_true, if_false]
    by_cases e1 : (sys.isFile (outName c.out) && c.strict) = true
    · rw [if_pos e1]
      rw [Bool.and_eq_true] at e1
      exact .inl ⟨.exist (hS.mp e1.2) ((hOut _).mpr rfl) e1.1, _, _, rfl⟩
    rw [if_neg e1]
    by_cases e2 : c.incl ≠ [] ∧ c.excl ≠ []
    · rw [if_pos e2]
      obtain ⟨x, hx⟩ := hi.mp e2.1
      obtain ⟨y, hy⟩ := he.mp e2.2
      exact .inl ⟨.both hx hy, _, _, rfl⟩
    rw [if_neg e2]
    have hsh : DiffOpts.short (outName c.out) = .ok (outName c.out) := by unfold DiffOpts.short; rw [if_pos hlen]
    simp only [hsh, Res.bind_ok]
    by_cases e3 : sys.writable (outName c.out) = false
    · rw [if_pos (by simp [e3])]
      exact .inl ⟨.write ((hOut _).mpr rfl) e3, _, _, rfl⟩
    rw [if_neg (by simpa using e3)]
    rcases findAll_ok sys { c with out := outName c.out } c.pats [] (by rw [hp]; exact ht.slash) (by rw [hp]; simpa using ht.number) (by simp) (by simp) with
      ⟨f1, f2, p, f3, f4⟩ | ⟨f1, gs, ns, f2, f3, f4, f5, f6⟩
    · rw [f1]
      refine .inl ⟨?_, _, _, rfl⟩
      rw [hp] at f3
      rcases f4 with f4 | ⟨d, x, g1, g2, g3, g4, g5⟩
      · exact .missing (hS.mp f2) f3 f4
      · exact .self (hS.mp f2) ((hOut _).mpr rfl) f3 g1 g2 g5 g3 g4
    · rw [f2]
      refine .inr ⟨?_, _, gs, rfl, hT, ?_, f5, f6⟩
      · rintro (⟨e⟩ | ⟨hx, hy⟩ | ⟨k1, k2, k3⟩ | ⟨k1, k2⟩ | ⟨k1, k2, k3⟩ | ⟨k1, k2, k3, k4, k5, k6, k7, k8⟩)
        · exact h2 ((two_iff l 5).mpr ⟨_, _, _, _, _, e⟩)
        · exact e2 ⟨hi.mpr ⟨_, hx⟩, he.mpr ⟨_, hy⟩⟩
        · rw [(hOut _).mp k2] at k3
          exact e1 (by rw [k3, hS.mpr k1]; rfl)
        · rw [(hOut _).mp k1] at k2
          exact e3 k2
        · exact f1 (hS.mpr k1) _ (by rw [hp]; exact k2) (.inl k3)
        · rw [(hOut _).mp k2] at k6
          exact f1 (hS.mpr k1) _ (by rw [hp]; exact k3) (.inr ⟨_, _, k4, k5, k7, k8, k6⟩)
      · rw [f3]; exact f4

theorem zero_code (c : UInt8) (h : ValInt.digit c = some 0) : c = 48 := by
  have : ∀ c : Fin 256, ValInt.digit (UInt8.ofFin c) = some 0 → UInt8.ofFin c = 48 := by decide +kernel
  exact this c.toFin h

/-- the labels for the files can be used -/
theorem C75_labels {sys : Sys} {c : Conf} {fs : List Found} (h : Uses sys c fs) (hn : fs.length < 2147483647) : ∀ f ∈ fs, goodUEL f.id = true := by
  intro f hf
  obtain ⟨n, hn', e⟩ := List.getElem_of_mem hf
  have hnf : fs[n]? = some f := by rw [List.getElem?_eq_getElem hn', e]
  obtain ⟨d, s, b, _, _, _, _, ⟨hu, hi⟩ | ⟨_, t, ht, hi⟩⟩ := h.ids n f hnf
  · have := (usable_iff s).mpr hu
    rw [Bool.or_eq_false_iff] at this
    rw [hi]; simpa using this.1
  · obtain ⟨h0, h1, h2⟩ := (ValInt.numeral_iff _ _ _).mp ht.1
    -- the number of digits
    have hlen : t.length ≤ 11 := by
      by_contra hc
      have hge : ∀ (t : Str), (∀ c ∈ t, ValInt.isDig 10 c = true) → t ≠ [] → t.head? ≠ some 48 → 10 ^ (t.length - 1) ≤ ValInt.number 10 t := by
        intro t
        induction t using List.reverseRecOn with
        | nil => simp
        | append_singleton t c ih =>
          intro hd _ hh
          rw [ValInt.number_snoc]
          cases t with
          | nil =>
            simp only [List.nil_append, List.length_singleton, Nat.sub_self, pow_zero]
            obtain ⟨m, hm, hm'⟩ := (ValInt.isDig_iff _ _).mp (hd c (by simp))
            have : m ≠ 0 := by
              rintro rfl
              exact hh (by rw [zero_code c hm]; rfl)
            rw [hm]; simp [ValInt.number]; omega
          | cons x t =>
            have := ih (fun c hc => hd c (by simp at hc ⊢; tauto)) (by simp) (by simpa using hh)
            simp only [List.length_append, List.length_cons, List.length_nil, Nat.add_sub_cancel] at this ⊢
            rw [pow_succ]
            omega
      have hz : t.head? ≠ some 48 := by
        intro h3
        have := ht.2 h3
        rw [this] at hc; simp at hc
      have := hge t h1 h0 hz
      have h4 : 10 ^ 11 ≤ 10 ^ (t.length - 1) := Nat.pow_le_pow_right (by decide) (by omega)
      omega
    have hq : ∀ c ∈ str "File_" ++ t, 32 ≤ c ∧ c ≠ 39 := by
      intro c hc
      rcases List.mem_append.mp hc with hc | hc
      · have : ∀ c ∈ str "File_", 32 ≤ c ∧ c ≠ 39 := by decide +kernel
        exact this c hc
      · have h5 := (ValInt.dec_code c).mp (h1 c hc)
        have : ∀ c : Fin 256, 48 ≤ UInt8.ofFin c ∧ UInt8.ofFin c ≤ 57 → 32 ≤ UInt8.ofFin c ∧ UInt8.ofFin c ≠ 39 := by decide +kernel
        exact this c.toFin h5
    rw [hi]
    unfold goodUEL canBeQuoted
    rw [Bool.and_eq_true, Props.canBeQuotedLoop_iff]
    have h6 : (str "File_").length = 5 := by decide +kernel
    refine ⟨by simp; omega, fun c hc => (hq c hc).1, fun h => (hq 39 h.1).2 rfl, by simp⟩

/-! ### The command line -/

theorem keys_names : Names keys := by
  constructor
  · decide +kernel
  · decide +kernel

/-- the names of the usage text are the names of the program, up to the case of letters -/
theorem keys_documented : (∀ k ∈ documented, ∃ j ∈ keys, SameNoCase j.1 k.1 ∧ j.2 = k.2) ∧ ∀ j ∈ keys, ∃ k ∈ documented, SameNoCase k.1 j.1 ∧ k.2 = j.2 := by
  unfold SameNoCase
  constructor <;> decide +kernel

theorem means_case {ks ks' : List (Text × Int)} (h1 : ∀ k ∈ ks, ∃ j ∈ ks', SameNoCase j.1 k.1 ∧ j.2 = k.2) (h2 : ∀ j ∈ ks', ∃ k ∈ ks, SameNoCase k.1 j.1 ∧ k.2 = j.2)
    {a : List Text} {r : List (Int × Text)} (hm : Means ks a r) : Means ks' a r := by
  induction hm with
  | nil => exact .nil
  | other w1 w2 _ ih =>
    refine .other w1 (fun j hj hs => ?_) ih
    obtain ⟨k, hk, e, _⟩ := h2 j hj
    exact w2 k hk (by unfold SameNoCase at *; rw [e, hs])
  | keyword w1 w2 w3 w4 w5 _ ih =>
    obtain ⟨⟨j, v⟩, hj, e, rfl⟩ := h1 _ w3
    exact .keyword w1 w2 hj (by unfold SameNoCase at *; dsimp only at e; rw [e, w4]) w5 ih
  | param w1 w2 w3 w4 w5 w6 w7 _ ih =>
    obtain ⟨⟨j, v⟩, hj, e, rfl⟩ := h1 _ w3
    exact .param w1 w2 hj (by unfold SameNoCase at *; dsimp only at e; rw [e, w4]) w5 w6 w7 ih

/-- the same for a command line -/
theorem C75_main_partial (sys : Sys) {args a : List Text} {r l : List (Int × Text)} (h0 : args ≠ []) (ha : ∀ x, args.head? = some x → ¬ SameNoCase x (str "AUDIT"))
    (hq : args ≠ [str "/?"]) (he : Expand sys.params args a) (hr : Means documented a r) (hi : Input r l) (h : Valid l) (ht : Tidy sys (words l)) :
    (Bad sys l ∧ ∃ d b, main sys args = .ok (.fail d b)) ∨ (¬ Bad sys l ∧ ∃ c fs, main sys args = .ok (.run c fs) ∧ Takes l c ∧ Uses sys c fs) := by
  obtain ⟨l', hc, hi'⟩ := C73_crack_partial keys_names he (means_case keys_documented.1 keys_documented.2 hr)
  have e : l' = l := Input.unique hi' hi
  subst e
  have hm : main sys args = start sys l' := by
    unfold main
    cases args with
    | nil => contradiction
    | cons x t =>
      have hx : DiffOpts.uEqual x (str "AUDIT") = false := by
        rw [← Bool.not_eq_true, DiffOpts.uEqual_iff]; exact ha x rfl
      have hy : ¬ (t = [] ∧ x = str "/?") := by rintro ⟨rfl, rfl⟩; exact hq rfl
      simp only [hx, Bool.false_eq_true, if_false, hy, hc, Res.bind_ok, if_true]
  rw [hm]
  exact C75_options_partial sys h ht

/-- without arguments, or with /?: the usage text -/
theorem C75_usage (sys : Sys) : main sys [] = .ok .usage ∧ main sys [str "/?"] = .ok .usage := by
  refine ⟨rfl, ?_⟩
  have h1 : DiffOpts.uEqual (str "/?") (str "AUDIT") = false := by decide +kernel
  simp [main, h1]

/-- an error that is found in the parameters themselves leaves the output file alone -/
theorem C75_untouched_partial (sys : Sys) {l : List (Int × Text)} (h : Valid l)
    (hb : (∃ a b c s t, l = a ++ (5, s) :: b ++ (5, t) :: c) ∨ ∃ n, StrictIs l ∧ OutIs l n ∧ sys.isFile n = true) : start sys l = .ok (.fail false false) := by
  obtain ⟨c, b, hst, s⟩ := steps_ok l {} h.plain
  have ho : outs {} l = valuesOf l 5 := by simp [outs]
  have hgp : getParams l = .ok ({ c with out := outName c.out }, b) := by
    unfold getParams
    rw [if_neg h.some', hst]; rfl
  have hout := s.out
  have hok := s.ok
  rw [ho] at hout hok
  unfold start
  rw [hgp]
  by_cases h2 : 2 ≤ (valuesOf l 5).length
  · have : b = false := by rw [← Bool.not_eq_true, hok]; omega
    rw [this]; rfl
  · have hb' : b = true := hok.mpr (by omega)
    rcases hb with hb | ⟨n, k1, k2, k3⟩
    · exact absurd ((two_iff l 5).mpr hb) h2
    · rw [(out_is (by omega) (fun s hs => (h.out s hs).1) n), ← hout] at k2
      have hS : c.strict = true := by rw [s.strict]; exact .inr ((strict_is h.strict).mpr k1)
      rw [← k2] 
      simp [hb', k3, hS]

/-! ### Examples -/

/-- what is seen of a run -/
structure Seen where
  incl : List (List UInt8)
  excl : List (List UInt8)
  big : Option Int
  strict : Bool
  out : List UInt8
  files : List (List UInt8 × List UInt8)
deriving DecidableEq

inductive View
  | fail (deleted begun : Bool)
  | run (s : Seen)
  | other
deriving DecidableEq

def view : Res Outcome → View
  | .ok (.run c fs) => .run ⟨c.incl, c.excl, c.big, c.strict, c.out, fs.map fun f => (f.name, f.id)⟩
  | .ok (.fail d b) => .fail d b
  | _ => .other

/-- a directory with the files `a.gdx`, `b'".gdx`, and `old.gdx` -/
def exSys : Sys where
  params := fun _ => none
  isFile := fun f => f = str "d/old.gdx"
  writable := fun _ => true
  find := fun p =>
    if p = str "d/*" then [str ".", str "..", str "a.gdx", [98, 39, 34, 46, 103], str "old.gdx"]
    else if p = str "d/a.gdx" then [str "a.gdx"] else []
  date := fun _ => []
  disk := fun _ => .content []

/-- `gdxmerge d/* "id=x, y" big=100 o=d/old` -/
example : view (main exSys [str "d/*", str "id=x, y", str "big=100", str "o=d/old"]) =
    .run ⟨[str "x", str "y"], [], some 100, false, str "d/old.gdx", [(str "d/a.gdx", str "a"), (str "d/" ++ [98, 39, 34, 46, 103], str "File_2")]⟩ := by decide +kernel

/-- in strict mode it ends, as the output file is there -/
example : view (main exSys [str "d/*", str "o=d/old", str "strict=TRUE"]) = .fail false false := by decide +kernel

/-- parameters that are described -/
example : Valid [(0, str "d/*"), (1, str "x, y"), (3, str "100"), (5, str "d/old")] := by
  refine ⟨by simp, by decide +kernel, ?_, ?_, ?_⟩
  · intro s hs
    have : s = str "100" := by simpa using hs
    subst this
    refine ⟨by decide +kernel, ?_, 100, ?_, by unfold ValInt.InInt; decide⟩
    · rintro ⟨u, c, t, h, _⟩
      have : (36 : UInt8) ∈ str "100" := by rw [h]; simp
      revert this; decide +kernel
    · refine ⟨0, str "100", by simp, ?_⟩
      have h : str "100" = [49, 48, 48] := by decide +kernel
      rw [h]
      exact ValInt.Signed.none (n := 100) (.dec ⟨by simp, [1, 0, 0], .cons (.dec 1 (by decide)) (.cons (.dec 0 (by decide)) (.cons (.dec 0 (by decide)) .nil)), by decide, by decide⟩)
  · intro a b c s t h
    have : (4, s) ∈ [((0 : Int), str "d/*"), (1, str "x, y"), (3, str "100"), (5, str "d/old")] := by rw [h]; simp
    simp at this
  · intro s hs
    have : s = str "d/old" := by simpa using hs
    subst this
    decide +kernel

/-! ### Where it is different -/

/-- the form `id=ident1, ident2` of the usage text, without quotes: the second identifier is a file pattern -/
theorem C75_blank : view (main exSys [str "d/a.gdx", str "id=x,", str "y"]) = .run ⟨[str "x"], [], none, false, str "merged.gdx", [(str "d/a.gdx", str "a")]⟩ ∧
    view (main exSys [str "d/a.gdx", str "id=x,", str "y", str "strict=true"]) = .fail false true := by decide +kernel

/-- both `id` and `exclude`: an error, but the output file has been deleted -/
theorem C75_deleted : view (main exSys [str "d/a.gdx", str "id=x", str "exclude=y", str "o=d/old"]) = .fail true false := by decide +kernel

/-- a missing input file in strict mode: an error, but a new output file has been begun. The next run fails because of it. -/
theorem C75_begun : view (main exSys [str "d/b.gdx", str "strict=true", str "o=d/new"]) = .fail false true := by decide +kernel

/-- `strict=false` after `strict=true` has no effect, and a value that is neither is ignored -/
theorem C75_strict : view (main exSys [str "d/*", str "o=d/old", str "strict=true", str "strict=false"]) = .fail false false ∧
    view (main exSys [str "d/b.gdx", str "strict=yes"]) = .run ⟨[], [], none, false, str "merged.gdx", []⟩ := by decide +kernel

/-- a value of `big` that is no number is ignored; one that is too large becomes another number -/
theorem C75_big : view (main exSys [str "d/a.gdx", str "big=1e6"]) = .run ⟨[], [], some 10000000, false, str "merged.gdx", [(str "d/a.gdx", str "a")]⟩ ∧
    view (main exSys [str "d/a.gdx", str "big=5000000000"]) = .run ⟨[], [], some 705032704, false, str "merged.gdx", [(str "d/a.gdx", str "a")]⟩ := by decide +kernel

/-- `big` without a value at the end: not an option but an empty file pattern -/
theorem C75_novalue : view (main exSys [str "d/a.gdx", str "big"]) = .run ⟨[], [], none, false, str "merged.gdx", [(str "d/a.gdx", str "a")]⟩ ∧
    view (main exSys [str "d/a.gdx", str "strict=true", str "big"]) = .fail false true := by decide +kernel

/-- a file that two patterns match is taken twice, with one label -/
theorem C75_twice : view (main exSys [str "d/*", str "d/a.gdx", str "o=d/old"]) =
    .run ⟨[], [], none, false, str "d/old.gdx", [(str "d/a.gdx", str "a"), (str "d/" ++ [98, 39, 34, 46, 103], str "File_2"), (str "d/a.gdx", str "a")]⟩ := by decide +kernel

/-- a value of `big` that is longer than 255 bytes: undefined -/
theorem C75_long (sys : Sys) {s : Text} (h : 255 < s.length) : start sys [(3, s)] = .ub := by
  have h0 : s ≠ [] := by rintro rfl; simp at h
  unfold start getParams
  simp [steps, step, h0, ValInt.C76_long h]

#print axioms C75_options_partial
#print axioms C75_main_partial
#print axioms C75_labels
#print axioms C75_deleted

end Gdx.MergeOpts
