import Verif.Props.Reopen
import Verif.Props.Domains

/-! C09: calls in the wrong mode. -/

namespace Gdx.Props
open Gdx

/-- A call was refused: it returns its failure value, one error (ERR_BADMODE) is raised, and nothing of the object changes but the record
    of errors. -/
def Refusal {α : Type} (g : Gx) (fail : α) (r : Res (Gx × α)) : Prop :=
  ∃ g', r = .ok (g', fail) ∧ g'.raised = g.raised ++ [-100002] ∧ errorCount g' = errorCount g + 1 ∧
    { g' with lastErr := g.lastErr, errCnt := g.errCnt, errTotal := g.errTotal, raised := g.raised } = g

theorem refusal_raise {α : Type} (g : Gx) (fail : α) : Refusal g fail (.ok (g.raise Err.badMode, fail)) := ⟨_, rfl, rfl, rfl, rfl⟩

theorem chk_no {g : Gx} {l : List Mode} (h : g.mode ∉ l) : g.chk l = (g.raise Err.badMode, false) := by
  unfold Gx.chk
  rw [if_neg h]

/-- C09: writing records, finishing a symbol, aliases, domains and comments. `anyWrite`: fw_init and the modes in which records are written. -/
theorem C09_writing_partial (z : Cz) (g : Gx) :
    (g.mode ∉ [.wRaw, .wDomRaw] → ∀ k v, Refusal g false (dataWriteRaw g k v)) ∧
    (g.mode ∉ [.wMap, .wDomMap] → ∀ k v, Refusal g false (dataWriteMap g k v)) ∧
    (g.mode ∉ [.wStr, .wDomStr] → ∀ k v, Refusal g false (dataWriteStr g k v)) ∧
    (g.mode ∉ [.wRaw, .wMap, .wStr, .wDomRaw, .wDomMap, .wDomStr] → Refusal g false (dataWriteDone z g)) ∧
    (g.mode ∉ [.wDomRaw, .wDomMap, .wDomStr] → ∀ ids, Refusal g false (symbolSetDomain g ids)) ∧
    (g.mode ∉ anyWrite → ∀ a b, Refusal g false (addAlias g a b)) ∧
    (g.mode ∉ anyWrite → ∀ n t, Refusal g false (symbolAddComment g n t)) := by
  refine ⟨fun h k v => ?_, fun h k v => ?_, fun h k v => ?_, fun h => ?_, fun h ids => ?_, fun h a b => ?_, fun h n t => ?_⟩
  · unfold dataWriteRaw
    have h' : g.mode ∉ [Mode.wRaw] := fun hm => h (by simp only [List.mem_singleton] at hm; simp [hm])
    have h'' : g.mode ≠ .wDomRaw := fun hm => h (by simp [hm])
    simp only [if_neg h'', chk_no h', if_true]
    exact refusal_raise g false
  · unfold dataWriteMap
    have h' : g.mode ∉ [Mode.wMap] := fun hm => h (by simp only [List.mem_singleton] at hm; simp [hm])
    have h'' : g.mode ≠ .wDomMap := fun hm => h (by simp [hm])
    simp only [if_neg h'', chk_no h', if_true]
    exact refusal_raise g false
  · unfold dataWriteStr
    have h' : g.mode ∉ [Mode.wStr] := fun hm => h (by simp only [List.mem_singleton] at hm; simp [hm])
    have h'' : g.mode ≠ .wDomStr := fun hm => h (by simp [hm])
    simp only [if_neg h'', chk_no h', if_true]
    exact refusal_raise g false
  · unfold dataWriteDone
    simp only [chk_no h, if_true]
    exact refusal_raise g false
  · unfold symbolSetDomain
    simp only [chk_no h, if_true]
    exact refusal_raise g false
  · unfold addAlias
    simp only [chk_no h, if_true]
    exact refusal_raise g false
  · unfold symbolAddComment
    simp only [chk_no h, if_true]
    exact refusal_raise g false

/-- C09: registering elements. (gdxUELRegisterMap looks at the string first: more than 255 bytes do not fit its buffer.) -/
theorem C09_elements (g : Gx) :
    (g.mode ≠ .wInit → Refusal g false (.ok (uelRegisterRawStart g))) ∧
    (g.mode ∉ [.rInit, .wInit] → Refusal g false (.ok (uelRegisterMapStart g)) ∧ Refusal g false (.ok (uelRegisterStrStart g))) ∧
    (g.mode ∉ [.rawElem, .mapElem, .strElem] → Refusal g false (.ok (uelRegisterDone g))) ∧
    (g.mode ≠ .rawElem → ∀ s, Refusal g false (uelRegisterRaw g s)) ∧
    (g.mode ≠ .strElem → ∀ s, Refusal g (false, 0) (uelRegisterStr g s)) ∧
    (g.mode ≠ .mapElem → ∀ k s t, trimR s = .ok t → Refusal g false (uelRegisterMap g k s)) := by
  have one : ∀ {m : Mode}, g.mode ≠ m → g.mode ∉ [m] := fun h hm => h (List.mem_singleton.mp hm)
  refine ⟨fun h => ?_, fun h => ⟨?_, ?_⟩, fun h => ?_, fun h s => ?_, fun h s => ?_, fun h k s t ht => ?_⟩
  · unfold uelRegisterRawStart
    simp only [chk_no (one h)]
    exact refusal_raise g false
  · unfold uelRegisterMapStart uelRegisterStart
    simp only [chk_no h]
    exact refusal_raise g false
  · unfold uelRegisterStrStart uelRegisterStart
    simp only [chk_no h]
    exact refusal_raise g false
  · unfold uelRegisterDone
    simp only [chk_no h]
    exact refusal_raise g false
  · unfold uelRegisterRaw
    simp only [chk_no (one h), if_true]
    exact refusal_raise g false
  · unfold uelRegisterStr
    simp only [chk_no (one h), if_true]
    exact refusal_raise g (false, 0)
  · unfold uelRegisterMap
    rw [ht]
    simp only [Res.bind_ok, chk_no (one h), if_true]
    exact refusal_raise g false

/-- C09: reading records, slices, filters, error records. -/
theorem C09_reading_partial (z : Cz) (g : Gx) :
    (g.mode ≠ .rRaw → Refusal g none (dataReadRaw g)) ∧
    (g.mode ≠ .rStr → Refusal g none (dataReadStr g)) ∧
    (g.mode ∉ [.rMap, .rMapR] → ∀ k, Refusal g none (dataReadMap g k)) ∧
    (g.mode ≠ .rSlice → ∀ f, Refusal g (false, 0, []) (dataReadSlice z g f)) ∧
    (g.mode ≠ .rSlice → ∀ k, Refusal g none (dataSliceUELS g k)) ∧
    (g.mode ≠ .rInit → ∀ n, Refusal g (0, []) (symbIndxMaxLength z g n)) ∧
    (g.mode ∉ [.rInit, .rRaw, .rMap, .rMapR, .rStr] → ∀ n, Refusal g false (filterExists g n)) ∧
    (g.mode ≠ .rInit → ∀ n, Refusal g false (filterRegisterStart g n)) ∧
    (g.mode ≠ .rFilter → ∀ n, Refusal g false (filterRegister g n)) ∧
    (g.mode ≠ .rFilter → Refusal g false (filterRegisterDone g)) ∧
    (g.mode ∉ [.rInit, .wInit, .rMap, .rMapR, .wRaw, .wMap, .wStr] → ∀ n,
      Refusal g none (.ok (dataErrorRecord g n)) ∧ Refusal g none (.ok (dataErrorRecordX g n))) := by
  have one : ∀ {m : Mode}, g.mode ≠ m → g.mode ∉ [m] := fun h hm => h (List.mem_singleton.mp hm)
  refine ⟨fun h => ?_, fun h => ?_, fun h k => ?_, fun h f => ?_, fun h k => ?_, fun h n => ?_, fun h n => ?_, fun h n => ?_, fun h n => ?_,
    fun h => ?_, fun h n => ⟨?_, ?_⟩⟩
  · unfold dataReadRaw
    simp only [chk_no (one h), if_true]
    exact refusal_raise g none
  · unfold dataReadStr
    simp only [chk_no (one h), if_true]
    exact refusal_raise g none
  · unfold dataReadMap
    simp only [chk_no h, if_true]
    exact refusal_raise g none
  · unfold dataReadSlice
    simp only [chk_no (one h), if_true]
    exact refusal_raise g _
  · unfold dataSliceUELS
    simp only [chk_no (one h), if_true]
    exact refusal_raise g _
  · unfold symbIndxMaxLength
    simp only [chk_no (one h), if_true]
    exact refusal_raise g _
  · unfold filterExists
    simp only [chk_no h, if_true]
    exact refusal_raise g _
  · unfold filterRegisterStart
    simp only [chk_no (one h), if_true]
    exact refusal_raise g _
  · unfold filterRegister
    simp only [chk_no (one h), if_true]
    exact refusal_raise g _
  · unfold filterRegisterDone
    simp only [chk_no (one h), if_true]
    exact refusal_raise g _
  · unfold dataErrorRecord dataErrorRecordX
    simp only [chk_no h, if_true]
    exact refusal_raise g none
  · unfold dataErrorRecordX
    simp only [chk_no h, if_true]
    exact refusal_raise g none

/-- A call was refused as far as file and tables are concerned; the error list, the current symbol and the collected records are given up. -/
def RefusalStart {α : Type} (g : Gx) (fail : α) (r : Res (Gx × α)) : Prop :=
  ∃ g', r = .ok (g', fail) ∧ g'.raised = g.raised ++ [-100002] ∧ errorCount g' = errorCount g + 1 ∧
    { g' with lastErr := g.lastErr, errCnt := g.errCnt, errTotal := g.errTotal, raised := g.raised
              cur := g.cur, errList := g.errList, sort := g.sort } = g

theorem prepareWrite_no {g : Gx} (h : g.mode ≠ .wInit) (name text : Str) (dim typ ui : Int) :
    prepareWrite g name text dim typ ui = .ok (({ g with cur := .none, errList := none, sort := none } : Gx).raise Err.badMode, false) := by
  have one : ({ g with cur := .none, errList := none, sort := none } : Gx).mode ∉ [Mode.wInit] := fun hm => h (List.mem_singleton.mp hm)
  unfold prepareWrite
  simp only [chk_no one, if_true]
  rfl

/-- C09: starting a symbol, when the mode is not fw_init. The file, all tables and the mode are as before. Missing: the collected records of
    a symbol that is being written, and the pointer to it (`C09_start`). -/
theorem C09_start_partial (g : Gx) (h : g.mode ≠ .wInit) (name text : Str) (dim typ ui : Int) :
    RefusalStart g false (dataWriteRawStart g name text dim typ ui) ∧
    (∀ bs, RefusalStart g false (dataWriteRawStartKeyBounds g name text dim typ ui bs)) ∧
    RefusalStart g false (dataWriteMapStart g name text dim typ ui) ∧
    RefusalStart g false (dataWriteStrStart g name text dim typ ui) := by
  refine ⟨?_, fun bs => ?_, ?_, ?_⟩
  · unfold dataWriteRawStart
    rw [prepareWrite_no h]
    exact ⟨_, rfl, rfl, rfl, rfl⟩
  · unfold dataWriteRawStartKeyBounds
    rw [prepareWrite_no h]
    exact ⟨_, rfl, rfl, rfl, rfl⟩
  · unfold dataWriteMapStart
    rw [prepareWrite_no h]
    exact ⟨_, rfl, rfl, rfl, rfl⟩
  · unfold dataWriteStrStart
    rw [prepareWrite_no h]
    exact ⟨_, rfl, rfl, rfl, rfl⟩

/-- A call was refused as far as file and tables are concerned, but now the mode is fr_init. -/
def RefusalRead {α : Type} (g : Gx) (fail : α) (r : Res (Gx × α)) : Prop :=
  ∃ g', r = .ok (g', fail) ∧ g'.raised = g.raised ++ [-100002] ∧ errorCount g' = errorCount g + 1 ∧ g'.mode = .rInit ∧
    { g' with lastErr := g.lastErr, errCnt := g.errCnt, errTotal := g.errTotal, raised := g.raised
              cur := g.cur, errList := g.errList, sort := g.sort, nrMapped := g.nrMapped, mode := g.mode } = g

theorem prepareRead_no (z : Cz) {g : Gx} (h : g.mode ∉ [.rInit, .rRaw, .rMap, .rMapR, .rStr]) (nr : Int) (acts : List Int) (m : Mode) :
    prepareRead z g nr acts m =
      .ok ({ ({ g with nrMapped := 0, errList := none, cur := .none, sort := none } : Gx).raise Err.badMode with mode := .rInit }, -1) := by
  have h1 : ¬ (g.mode = .rStr ∨ g.mode = .rMap ∨ g.mode = .rMapR ∨ g.mode = .rRaw) := by
    rintro (hm | hm | hm | hm) <;> exact h (by simp [hm])
  have h2 : ({ g with nrMapped := 0, errList := none, cur := .none, sort := none } : Gx).mode ∉ [Mode.rInit] :=
    fun hm => h (by rw [show g.mode = .rInit from List.mem_singleton.mp hm]; simp)
  unfold prepareRead prepareStart finishRead
  rw [if_neg h1]
  simp only [Res.bind_ok, chk_no h2, if_true]
  rfl

/-- C09: starting or ending a read in a mode that does not allow it. (A read in progress is ended by the next start.) File and tables are as before.
    Missing: the mode (`C09_lost`, `C09_done_lost`). -/
theorem C09_read_partial (z : Cz) (g : Gx) :
    (g.mode ∉ [.rInit, .rRaw, .rMap, .rMapR, .rStr] → ∀ nr, RefusalRead g (false, -1) (dataReadRawStart z g nr) ∧
      RefusalRead g (false, -1) (dataReadStrStart z g nr) ∧ RefusalRead g (false, -1) (dataReadMapStart z g nr) ∧
      ∀ acts, RefusalRead g (false, -1) (dataReadFilteredStart z g nr acts)) ∧
    (g.mode ∉ [.rInit, .rRaw, .rMap, .rMapR, .rStr, .rSlice] → RefusalRead g false (dataReadDone g)) := by
  refine ⟨fun h nr => ⟨?_, ?_, ?_, fun acts => ?_⟩, fun h => ?_⟩
  · unfold dataReadRawStart
    rw [prepareRead_no z h]
    exact ⟨_, rfl, rfl, rfl, rfl, rfl⟩
  · unfold dataReadStrStart
    rw [prepareRead_no z h]
    exact ⟨_, rfl, rfl, rfl, rfl, rfl⟩
  · unfold dataReadMapStart
    rw [prepareRead_no z h]
    exact ⟨_, rfl, rfl, rfl, rfl, rfl⟩
  · unfold dataReadFilteredStart
    rw [prepareRead_no z h]
    exact ⟨_, rfl, rfl, rfl, rfl, rfl⟩
  · have h2 : ({ g with sort := none, cur := .none } : Gx).mode ∉ [Mode.rInit, .rRaw, .rMap, .rMapR, .rStr, .rSlice] := h
    unfold dataReadDone
    simp only [chk_no h2, if_true]
    exact ⟨_, rfl, rfl, rfl, rfl, rfl⟩

/-- C09: opening a file while one is open is refused with ERR_FILEALREADYOPEN and changes nothing; gdxOpenAppend remembers its producer. -/
theorem C09_open (e : Env) (z : Cz) (g : Gx) (h : g.mode ≠ .notOpen) :
    (∀ n i p c, openWriteEx e g n i p c = .ok (g, (false, -100059))) ∧ (∀ d m, openReadXX z g d m = .ok (g, (false, -100059))) ∧
    ∀ d p, ∃ g', openAppend z g d p = .ok (g', (false, -100059)) ∧ { g' with producer2 := g.producer2, appendActive := g.appendActive } = g := by
  refine ⟨fun n i p c => ?_, fun d m => ?_, fun d p => ?_⟩
  · unfold openWriteEx
    rw [if_pos h]
    rfl
  · unfold openReadXX
    rw [if_pos h]
    rfl
  · have h' : ({ g with producer2 := p, appendActive := true } : Gx).mode ≠ .notOpen := h
    unfold openAppend openReadXX
    simp only [if_pos h']
    exact ⟨_, rfl, rfl⟩

/-! ### examples and counterexamples -/

/-- a record written after the symbol was finished -/
example : after [.openWrite false 0 [65] 0, .uelRawStart, .uelRaw [97], .uelDone, .rawStart [112] [] 1 1 0, .writeRaw [1] [0], .writeDone]
    (fun g => do
      let (g', r) ← dataWriteRaw g [1] [0]
      pure (g.mode, r, errorCount g', decide (g'.names = g.names ∧ g'.file = g.file))) = .ok (.wInit, false, 1, true) := by decide +kernel

/-- C09 is violated: starting a second symbol while one is being written is refused, but the records of the first one are gone; the next record
    or the end of the symbol dereferences a null pointer. -/
theorem C09_start : after [.openWrite false 0 [65] 0, .strStart [112] [] 1 1 0, .writeStr [[97]] [0]] (fun g => do
      let (g1, r) ← dataWriteStrStart g [113] [] 1 1 0
      pure (r, g1.mode, dataWriteStr g1 [[98]] [0], dataWriteDone Cz.id g1)) = .ok (false, .wStr, .ub, .ub) := by decide +kernel

/-- a file with the parameter `p`, ready to be closed -/
def exWritten09 : List Call :=
  [.openWrite false 0 [65] 0, .uelRawStart, .uelRaw [97], .uelDone, .rawStart [112] [] 1 1 0, .writeRaw [1] [0], .writeDone]

example : reopened26 exWritten09 (fun g => .ok (systemInfo g)) = .ok (1, 1) := by decide +kernel

/-- C09 is violated: trying to read while writing is refused, but the mode is then fr_init, so that gdxClose does not write the tables: the file
    is lost (it does not open). -/
theorem C09_lost : after exWritten09 (fun g => do
      let (g1, r) ← dataReadRawStart Cz.id g 1
      let (g2, c) ← gdxClose Cz.id g1
      let (_, o) ← openRead Cz.id Gx.new (.content g2.file)
      pure (r, c, o)) = .ok ((false, -1), 0, (false, -100031)) := by decide +kernel

theorem C09_done_lost : after exWritten09 (fun g => do
      let (g1, r) ← dataReadDone g
      let (g2, c) ← gdxClose Cz.id g1
      let (_, o) ← openRead Cz.id Gx.new (.content g2.file)
      pure (r, c, o)) = .ok (false, 0, (false, -100031)) := by decide +kernel

/-- C09 is violated: with no file open gdxDataReadDone sets the mode fr_init, and no file can be opened any more. -/
theorem C09_done_closed : (do
      let (g1, r) ← dataReadDone Gx.new
      let (_, o) ← openWriteEx ⟨[]⟩ g1 false 0 [65] 0
      pure (r, o)) = .ok (false, (false, -100059)) := by decide +kernel

/-- C09 is violated: the readers that call gdxDataReadRawStart themselves do not look at its result; in a wrong mode they go on with whatever the
    object contains (undefined behaviour). -/
theorem C09_fast (z : Cz) (g : Gx) (h : g.mode ∉ [.rInit, .rRaw, .rMap, .rMapR, .rStr]) (nr : Int) :
    dataReadRawFast z g nr = .ub ∧ (∀ cont, dataReadRawFastEx z g nr cont = .ub) ∧ dataReadSliceStart z g nr = .ub := by
  have h' : ({ g with sliceSy := nr } : Gx).mode ∉ [.rInit, .rRaw, .rMap, .rMapR, .rStr] := h
  have key : ∀ cont, dataReadRawFastEx z g nr cont = .ub := fun cont => by
    unfold dataReadRawFastEx prepareRawUnchecked
    rw [prepareRead_no z h]
    rfl
  refine ⟨key _, key, ?_⟩
  unfold dataReadSliceStart prepareRawUnchecked
  simp only [prepareRead_no z h']
  rfl

example : after exWritten09 (fun g => .ok (g.mode, g.stat)) = .ok (.wInit, .write) := by decide +kernel

#print axioms C09_writing_partial
#print axioms C09_elements
#print axioms C09_reading_partial
#print axioms C09_start_partial
#print axioms C09_read_partial
#print axioms C09_open
#print axioms C09_start
#print axioms C09_lost
#print axioms C09_done_lost
#print axioms C09_done_closed
#print axioms C09_fast

end Gdx.Props
