import Verif.Proofs.CmdLine

/-!
C73: the parameters of a command line (gdxdiff, gdxmerge) are the ones given: words, keywords, parameters with values in all the ways to write them, and parameter
files; the value of a parameter is the last one given.
-/

namespace Gdx.CmdPar
open Gdx CmdLine Spec

/-- no input is marked in two ways -/
theorem Input.unique {r a b : List (Int × Text)} (h : Input r a) (h' : Input r b) : a = b := by
  cases h with
  | first h =>
    cases h' with
    | first _ => rfl
    | given h' =>
      rcases List.mem_cons.mp h' with h' | h'
      · simp at h'
      · exact absurd rfl (h _ h')
    | other h' => exact absurd rfl (h' _ _)
  | given h =>
    cases h' with
    | first h' =>
      rcases List.mem_cons.mp h with h | h
      · simp at h
      · exact absurd rfl (h' _ h)
    | given _ => rfl
    | other _ => rfl
  | other h =>
    cases h' with
    | first _ => exact absurd rfl (h _ _)
    | given _ => rfl
    | other _ => rfl

/-- every command line is parsed to its end -/
theorem C73_total (ks : List (Text × Int)) (fs : Text → Option (List Text)) (args : List Text) : ∃ b r, crack ks fs args = .ok (b, r) := by
  obtain ⟨⟨b, r⟩, h⟩ := crack_total ks fs args
  exact ⟨b, r, h⟩

/-- the parameters are the ones that the arguments, and the words in the parameter files, mean -/
theorem C73_crack_partial {ks : List (Text × Int)} {fs : Text → Option (List Text)} {args a : List Text} {r : List (Int × Text)} (hk : Names ks)
    (he : Expand fs args a) (hr : Means ks a r) : ∃ r', crack ks fs args = .ok (true, r') ∧ Input r r' :=
  ⟨_, crack_means hk he hr, markInput_input r⟩

/-- the value of a parameter is the last one -/
theorem C73_last (l : List (Int × Text)) (v : Int) (s : Text) : findKey l v = some s ↔ ∃ l₁ l₂, l = l₁ ++ (v, s) :: l₂ ∧ ∀ p ∈ l₂, p.1 ≠ v := by
  unfold findKey
  rw [Option.map_eq_some_iff]
  constructor
  · rintro ⟨⟨v', s'⟩, h, rfl⟩
    rw [List.find?_eq_some_iff_append] at h
    obtain ⟨hv, as, bs, h, hn⟩ := h
    simp at hv; subst hv
    refine ⟨bs.reverse, as.reverse, ?_, ?_⟩
    · simpa using congrArg List.reverse h
    · intro p hp; simpa using hn p (by simpa using hp)
  · rintro ⟨l₁, l₂, rfl, hn⟩
    refine ⟨(v, s), ?_, rfl⟩
    rw [List.find?_eq_some_iff_append]
    exact ⟨by simp, l₂.reverse, l₁.reverse, by simp, fun p hp => by simpa using hn p (by simpa using hp)⟩

/-- and there is none only if the parameter is not there -/
theorem C73_none (l : List (Int × Text)) (v : Int) : findKey l v = none ↔ ∀ p ∈ l, p.1 ≠ v := by
  simp [findKey]

/-- a value that fits into a ShortString is handed out -/
theorem C73_value_partial {l : List (Int × Text)} {v : Int} {s : Text} (h : findKey l v = some s) (hs : s.length ≤ 255) : hasParam l v = .ok (some s) := by
  simp [hasParam, h, hs]

/-- a longer one is written behind the end of the buffer -/
theorem C73_value_long {l : List (Int × Text)} {v : Int} {s : Text} (h : findKey l v = some s) (hs : 255 < s.length) : hasParam l v = .ub := by
  simp [hasParam, h, hs]

/-! ### Examples -/

/-- the ASCII characters of a string -/
def tx (s : String) : Text := s.toList.map fun c => c.toNat.toUInt8

def noFiles : Text → Option (List Text) := fun _ => none

def exKeys : List (Text × Int) := [(tx "Eps", 10001), (tx "ID", 10007), (tx "DiffOnly", 9)]

theorem exKeys_names : Names exKeys := by
  constructor
  · decide +kernel
  · decide +kernel

def exFiles : Text → Option (List Text) := fun n => if n = tx "opt.txt" then some [tx "* options", [], tx "Eps 0.5 diffonly"] else none

theorem word_of {w : Text} (h : (61 ∉ w ∧ 34 ∉ w ∧ 64 ∉ w) ∧ (32 ∈ w ∨ (9 ∉ w ∧ w ≠ [] ∧ 32 < w.headD 0 ∧ w.headD 0 < 128))) : Word w := by
  refine ⟨h.1.1, h.1.2.1, h.1.2.2, ?_⟩
  rcases h.2 with h | ⟨h9, h0, h1, h2⟩
  · exact .inl h
  · cases w with
    | nil => contradiction
    | cons c t => exact .inr ⟨h9, c, t, rfl, h1, h2⟩

/-- `a.gdx "my file.gdx" @opt ID = "x y"` -/
def exArgs : List Text := [tx "a.gdx", tx "my file.gdx", tx "@opt", tx "ID", tx "=", tx "x y"]

/-- the hypotheses can be met: file names, a parameter file, a keyword and two parameters -/
example : ∃ a, Expand exFiles exArgs a ∧ Means exKeys a [(-2, tx "a.gdx"), (-2, tx "my file.gdx"), (1, tx "0.5"), (9, []), (7, tx "x y")] := by
  refine ⟨[tx "a.gdx", tx "my file.gdx", tx "Eps", tx "0.5", tx "diffonly", tx "ID", tx "=", tx "x y"], ?_, ?_⟩
  · refine .plain (by decide +kernel) (by decide +kernel) (.plain (by decide +kernel) (by decide +kernel) ?_)
    refine .file (f := tx "opt") (n := tx "opt.txt") (ls := [tx "* options", [], tx "Eps 0.5 diffonly"]) (ws := [tx "Eps", tx "0.5", tx "diffonly"])
      (by decide +kernel) (by decide +kernel) (by decide +kernel) (.inr ⟨by decide +kernel, ?_⟩) (by decide +kernel) ?_ ?_
    · rintro ⟨a, b, h, _⟩
      have : (46 : UInt8) ∈ tx "opt" := by rw [h]; simp
      exact absurd this (by decide +kernel)
    · exact .comment (l := tx " options") (.blank (.words (w := tx "Eps") (us := [tx "0.5", tx "diffonly"]) (ws := []) (by decide +kernel) (by decide +kernel) (by decide +kernel) .nil))
    · exact .plain (by decide +kernel) (by decide +kernel) (.plain (by decide +kernel) (by decide +kernel) (.plain (by decide +kernel) (by decide +kernel) .nil))
  · refine .other (word_of (by decide +kernel)) (by decide +kernel) (.other (word_of (by decide +kernel)) (by decide +kernel) ?_)
    refine .param (l := [tx "Eps", tx "0.5"]) (k := tx "Eps") (v := 10001) (word_of (by decide +kernel)) (by decide +kernel) (by decide +kernel) (by decide +kernel) (by decide)
      ⟨word_of (by decide +kernel), .inr ⟨rfl, ?_⟩⟩ .two ?_
    · rintro ⟨u, h⟩
      have := congrArg List.head? h
      rw [List.head?_cons] at this
      exact absurd this (by decide +kernel)
    refine .keyword (k := tx "DiffOnly") (v := 9) (word_of (by decide +kernel)) (by decide +kernel) (by decide +kernel) (by decide +kernel) (by decide) ?_
    refine .param (l := [tx "ID", [61], tx "x y"]) (a := []) (k := tx "ID") (v := 10007) (word_of (by decide +kernel)) (by decide +kernel) (by decide +kernel) (by decide +kernel) (by decide)
      ⟨word_of (by decide +kernel), .inr ⟨rfl, ?_⟩⟩ .three .nil
    rintro ⟨u, h⟩
    have := congrArg List.head? h
    rw [List.head?_cons] at this
    exact absurd this (by decide +kernel)

example : crack exKeys exFiles exArgs = .ok (true, [(0, tx "a.gdx"), (-2, tx "my file.gdx"), (1, tx "0.5"), (9, []), (7, tx "x y")]) := by decide +kernel

/-! ### What is not as given -/

/-- a file name with `@`: the rest is taken for the name of a parameter file -/
theorem C73_at : crack exKeys noFiles [tx "a@b.gdx"] = .ok (false, [(0, tx "a")]) := by decide +kernel

/-- a file name with `=` is cut into two words -/
theorem C73_equals : crack exKeys noFiles [tx "a=b.gdx"] = .ok (true, [(0, tx "a"), (-2, tx "b.gdx")]) := by decide +kernel

/-- a stray `=` after a keyword ends the list: the parameters behind it are lost, and there is no error -/
theorem C73_stray : crack exKeys noFiles [tx "a", tx "b", tx "DiffOnly", tx "=", tx "Y", tx "Eps=0.1"] = .ok (true, [(0, tx "a"), (-2, tx "b"), (9, [])]) := by decide +kernel

/-- a parameter without a value takes the next parameter for its value -/
theorem C73_swallow : crack exKeys noFiles [tx "a", tx "b", tx "ID=", tx "DiffOnly"] = .ok (true, [(0, tx "a"), (-2, tx "b"), (7, tx "DiffOnly")]) := by decide +kernel

/-- the bytes from 128 on at the start of a word are skipped: the file `é.gdx` (UTF-8) is not found -/
theorem C73_utf8 : crack exKeys noFiles [0xC3 :: 0xA9 :: tx ".gdx"] = .ok (true, [(0, tx ".gdx")]) := by decide +kernel

/-- two blanks in a line of a parameter file end the line; a line that starts with a blank is ignored -/
theorem C73_blanks : crack exKeys (fun _ => some [tx "a  Eps=1", tx " DiffOnly"]) [tx "@f"] = .ok (true, [(0, tx "a")]) := by decide +kernel

/-- so that not every word without a blank arrives -/
theorem C73_fails : ¬ ∀ w : Text, w ≠ [] → 32 ∉ w → crack exKeys noFiles [w] = .ok (true, [(0, w)]) := by
  intro h
  have := h (tx "a=b.gdx") (by decide +kernel) (by decide +kernel)
  rw [C73_equals] at this
  exact absurd this (by decide +kernel)

#print axioms C73_total
#print axioms C73_crack_partial
#print axioms C73_last
#print axioms C73_fails

end Gdx.CmdPar
