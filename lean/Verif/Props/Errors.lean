import Verif.Proofs.Hist

/-!
C10: the error register keeps the first error, the counter counts all of them.

`raised` is a ghost of the model: `Gx.raise` (SetError) appends the error to it and nothing else touches it except
InitErrors (opening). Openings are not covered by the history theorems: they start a new count, and those that fail assign
LastError directly (`C10_failed_open_counterexample`).
-/

namespace Gdx.Props

open Gdx

/-- calls that neither open a file nor ask for the last error -/
def Quiet (c : Call) : Prop := c.WF ∧ c.opensRead = false ∧ c.opensWrite = false ∧ c ≠ .getLastError

/-- the errors `errs` were raised between `g` and `g'` -/
structure Raised (g g' : Gx) (errs : List Int) : Prop where
  ghost : g'.raised = g.raised ++ errs
  count : errorCount g' = errorCount g + errs.length
  nonzero : ∀ n ∈ errs, n ≠ 0
  last : g'.lastErr = if g.lastErr = 0 then errs.head?.getD 0 else g.lastErr

theorem Raised.refl (g : Gx) : Raised g g [] := ⟨by simp, by simp, by simp, by simp⟩

theorem Raised.same {g g' g'' : Gx} {l : List Int} (h : Raised g g' l) (h1 : g''.raised = g'.raised)
    (h2 : g''.errTotal = g'.errTotal) (h3 : g''.lastErr = g'.lastErr) : Raised g g'' l :=
  ⟨by rw [h1]; exact h.ghost, by unfold errorCount; rw [h2]; exact h.count, h.nonzero, by rw [h3]; exact h.last⟩

theorem Raised.raise {g g' : Gx} {l : List Int} (h : Raised g g' l) {n : Int} (hn : n ≠ 0) :
    Raised g (g'.raise n) (l ++ [n]) := by
  refine ⟨?_, ?_, ?_, ?_⟩
  · show g'.raised ++ [n] = _
    rw [h.ghost, List.append_assoc]
  · show g'.errTotal + 1 = _
    have := h.count
    unfold errorCount at this ⊢
    rw [this, List.length_append]
    simp only [List.length_singleton, Nat.cast_add, Nat.cast_one]
    omega
  · intro m hm
    rcases List.mem_append.mp hm with hm | hm
    · exact h.nonzero m hm
    · rw [List.mem_singleton.mp hm]; exact hn
  · show (if g'.lastErr = 0 then n else g'.lastErr) = _
    rw [h.last]
    by_cases h0 : g.lastErr = 0
    · rw [if_pos h0, if_pos h0]
      cases l with
      | nil => simp
      | cons a l =>
        have ha : a ≠ 0 := h.nonzero a (by simp)
        simp [ha]
    · rw [if_neg h0, if_neg h0, if_neg h0]

theorem prim_raised (g0 : Gx) : ∀ a b, Prim .all a b → (∃ l, Raised g0 a l) → ∃ l, Raised g0 b l := by
  rintro a b h ⟨l, hl⟩
  cases h with
  | ctrl h _ _ =>
    exact ⟨l, hl.same (congrArg Core.raised h) (congrArg Core.errTotal h) (congrArg Core.lastErr h)⟩
  | raise n hn => exact ⟨l ++ [n], hl.raise hn⟩
  | _ => exact ⟨l, hl.same rfl rfl rfl⟩

theorem step_raised (e : Env) (z : Cz) (g0 g : Gx) (c : Call) (hq : Quiet c) (ha : Aft g) (h : ∃ l, Raised g0 g l) :
    (step e z g c).All fun g' => ∃ l, Raised g0 g' l := by
  by_cases hs : c.special = false
  · exact (step_evo e z g c hq.1 hs ha).mono fun g' hg' => hg'.toAll.inv (prim_raised g0) h
  · cases c with
    | getLastError => exact absurd rfl hq.2.2.2
    | openWrite => cases hq.2.2.1
    | openRead => cases hq.2.1
    | openAppend => cases hq.2.1
    | close =>
      exact stateOf_all (gdxClose_inv (prim_raised g0) (fun g f lg ⟨l, h⟩ => ⟨l, h.same rfl rfl rfl⟩)
        (fun g ⟨l, h⟩ => ⟨l, h.same rfl rfl rfl⟩) z h)
    | uelMap m s =>
      exact stateOf_all (uelRegisterMap_inv (prim_raised g0) (fun g u u' _ _ ⟨l, h⟩ => ⟨l, h.same rfl rfl rfl⟩) m s h)
    | renameUEL o s =>
      exact stateOf_all (renameUEL_inv (P := fun x => ∃ l, Raised g0 x l)
        (fun g u u' _ _ ⟨l, h⟩ => ⟨l, h.same rfl rfl rfl⟩) o s h)
    | _ => exact absurd rfl hs

theorem run_raised (e : Env) (z : Cz) (g0 g : Gx) (cs : List Call) (hc : ∀ c ∈ cs, Quiet c) (ha : Aft g)
    (h : ∃ l, Raised g0 g l) : (run e z g cs).All fun g' => Aft g' ∧ ∃ l, Raised g0 g' l :=
  run_all (P := fun x => ∃ l, Raised g0 x l) (Q := fun _ c _ => Quiet c) e z
    (fun g c _ _ ha hg' hq h => (step_raised e z g0 g c hq ha h).of_ok hg') cs g (fun c h => (hc c h).1) ha h
    (along_of e z cs g fun _ _ c h => hc c h)

/-- C10: ask for the last error, make any calls (none of them opens a file or asks again), ask again. The errors `errs`
    raised in between are counted one by one, the answer is the first of them (0 if there is none), and asking once more
    gives 0. -/
theorem C10_first_error (e : Env) (z : Cz) (g : Gx) (cs : List Call) (g' : Gx) (ha : Aft g)
    (hc : ∀ c ∈ cs, Quiet c) (h : run e z (getLastError g).1 cs = .ok g') :
    ∃ errs, g'.raised = g.raised ++ errs ∧ (∀ n ∈ errs, n ≠ 0) ∧ errorCount g' = errorCount g + errs.length ∧
      (getLastError g').2 = errs.head?.getD 0 ∧ (getLastError (getLastError g').1).2 = 0 := by
  have ha' : Aft (getLastError g).1 := ha
  obtain ⟨-, l, hl⟩ := (run_raised e z _ _ cs hc ha' ⟨[], Raised.refl _⟩).of_ok h
  refine ⟨l, hl.ghost, hl.nonzero, hl.count, ?_, rfl⟩
  show g'.lastErr = _
  rw [hl.last]
  rfl

/-- C10: the same from a state without a pending error, such as a newly opened file -/
theorem C10_first_error_fresh (e : Env) (z : Cz) (g : Gx) (cs : List Call) (g' : Gx) (ha : Aft g) (h0 : g.lastErr = 0)
    (hc : ∀ c ∈ cs, Quiet c) (h : run e z g cs = .ok g') :
    ∃ errs, g'.raised = g.raised ++ errs ∧ (∀ n ∈ errs, n ≠ 0) ∧ errorCount g' = errorCount g + errs.length ∧
      (getLastError g').2 = errs.head?.getD 0 := by
  obtain ⟨-, l, hl⟩ := (run_raised e z _ _ cs hc ha ⟨[], Raised.refl _⟩).of_ok h
  refine ⟨l, hl.ghost, hl.nonzero, hl.count, ?_⟩
  show g'.lastErr = _
  rw [hl.last, if_pos h0]

/-- C10: the counter never decreases, it grows by the number of errors raised; asking for the last error does not change it -/
theorem C10_counter (e : Env) (z : Cz) (g : Gx) (cs : List Call) (g' : Gx) (ha : Aft g) (hw : ∀ c ∈ cs, c.WF)
    (hc : ∀ c ∈ cs, c.opensRead = false ∧ c.opensWrite = false) (h : run e z g cs = .ok g') :
    ∃ errs, g'.raised = g.raised ++ errs ∧ errorCount g' = errorCount g + errs.length ∧ errorCount g ≤ errorCount g' := by
  let P : Gx → Prop := fun x => ∃ errs : List Int, x.raised = g.raised ++ errs ∧ errorCount x = errorCount g + errs.length
  have hP : P g := ⟨[], by simp, by simp⟩
  have := run_all (P := P) (Q := fun _ c _ => c.opensRead = false ∧ c.opensWrite = false) e z
    (fun x c x' hw ha hx' hq hp => by
      by_cases hg : c = .getLastError
      · subst hg
        cases hx'
        exact hp
      · obtain ⟨l, hl⟩ := (step_raised e z x x c ⟨hw, hq.1, hq.2, hg⟩ ha ⟨[], Raised.refl _⟩).of_ok hx'
        obtain ⟨errs, h1, h2⟩ := hp
        refine ⟨errs ++ l, by rw [hl.ghost, h1, List.append_assoc], ?_⟩
        rw [hl.count, h2, List.length_append]
        simp only [Nat.cast_add]
        omega) cs g hw ha hP (along_of e z cs g fun _ _ c h => hc c h)
  obtain ⟨-, errs, h1, h2⟩ := this.of_ok h
  exact ⟨errs, h1, h2, by omega⟩

/-- C10: a successful opening starts a new count without a pending error -/
theorem C10_open_write (e : Env) (g : Gx) (n : Bool) (i : Int) (p : Str) (c : Int) (g' : Gx) (k : Int)
    (h : openWriteEx e g n i p c = .ok (g', (true, k))) : errorCount g' = 0 ∧ g'.lastErr = 0 ∧ k = 0 := by
  unfold openWriteEx at h
  split at h
  · cases h
  split at h
  · cases h
  split at h
  · cases h
  obtain ⟨hd, h1, h2⟩ := Res.bind_eq_ok.mp h
  cases h2
  exact ⟨rfl, rfl, rfl⟩

/-! ### where the property fails -/

/-- opening resets the counter: an open file, a wrong call, close, open again -/
theorem C10_reset_counterexample :
    ∃ g1 g2, run ⟨[]⟩ Cz.id Gx.new [.openWrite false 0 [] 0, .readRaw, .close] = .ok g1 ∧ errorCount g1 = 1 ∧
      step ⟨[]⟩ Cz.id g1 (.openWrite false 0 [] 0) = .ok g2 ∧ errorCount g2 = 0 := by
  refine ⟨_, _, rfl, rfl, rfl, rfl⟩

/-- a failed opening reports an error that is not counted -/
theorem C10_failed_open_counterexample :
    ∃ g1, step ⟨[]⟩ Cz.id Gx.new (.openRead .noName 0) = .ok g1 ∧ (getLastError g1).2 = Err.noFile ∧ errorCount g1 = 0 := by
  refine ⟨_, rfl, rfl, rfl⟩

/-- not vacuous: two errors, the first one is reported -/
example : ∃ g1 g2, run ⟨[]⟩ Cz.id Gx.new [.openWrite false 0 [] 0] = .ok g1 ∧
    run ⟨[]⟩ Cz.id (getLastError g1).1 [.readRaw, .uelStrStart, .uelStr [65, 39, 34, 65], .uelStr [65]] = .ok g2 ∧
    errorCount g2 = 2 ∧ (getLastError g2).2 = Err.badMode ∧ g2.raised = [Err.badMode, Err.badUelStr] := by
  refine ⟨_, _, rfl, rfl, rfl, rfl, rfl⟩

end Gdx.Props
