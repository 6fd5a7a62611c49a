import Verif.Proofs.Own
import Verif.Proofs.PhaseAll

/-!
C06: what was written before gdxClose is there after gdxOpenRead; C47: gdxClose finishes the symbol that is being written.
-/

namespace Gdx.Props

open Gdx

/-- what the queries of the API say about the tables of a file; `g2` has opened the file written by `g` -/
structure SameTables (g g2 : Gx) : Prop where
  counts : systemInfo g2 = systemInfo g
  info : ∀ n, symbolInfo g2 n = symbolInfo g n
  infoX : ∀ n, n ≠ 0 → symbolInfoX g2 n = symbolInfoX g n
  univ : (symbolInfoX g2 0).recs = (systemInfo g).2
  find : ∀ s, findSymbol g2 s = findSymbol g s
  hasText : ∀ n, setHasText g2 n = setHasText g n
  comment : ∀ nr n, symbolGetComment g2 nr n = symbolGetComment g nr n
  domain : ∀ n g1 a, symbolGetDomain g n = .ok (g1, a) → ∃ g3, symbolGetDomain g2 n = .ok (g3, a)
  domainX : ∀ n g1 a, symbolGetDomainX g n = .ok (g1, a) → ∃ g3, symbolGetDomainX g2 n = .ok (g3, a)
  element : ∀ n s m, umUelGet g n = .ok (true, s, m) → umUelGet g2 n = .ok (true, s, -1)
  elementNr : ∀ s b n m, umFindUEL g s = .ok (b, n, m) → umFindUEL g2 s = .ok (b, n, -1)
  text : ∀ n s d, getElemText g n = (true, s, d) → getElemText g2 n = (true, s, 0)
  textEnd : ∀ n, (getElemText g n).1 = false → (getElemText g2 n).1 = false
  acronyms : acronymCount g2 = acronymCount g
  acronym : ∀ n s t i, acronymGetInfo g n = .ok (some (s, t, i)) → s ≠ [] → acronymGetInfo g2 n = .ok (some (s, t, i))
  unnamed : ∀ n t i, acronymGetInfo g n = .ok (some ([], t, i)) → acronymGetInfo g2 n = .ok (some (unknownACRO ++ intToStr i, t, i))

theorem symAt_reopened {g g2 : Gx} {f : List UInt8} {rm : Int} (h : Reopened rm g f g2) (n : Int) : g2.symAt n = (g.symAt n).map Sym.reopened := by
  obtain ⟨l, h1, h2⟩ := h.names
  unfold Gx.symAt
  rw [h1, h2]
  simp only [List.length_map, List.getElem?_map]
  split <;> rfl

theorem digits_length : ∀ fuel n : Nat, (digits fuel n).length ≤ fuel
  | 0, n => by simp [digits]
  | fuel + 1, n => by
    unfold digits
    split
    · simp
    · have := digits_length fuel (n / 10)
      simp
      exact this

theorem intToStr_length (i : Int) : (intToStr i).length ≤ 21 := by
  have := digits_length 20 i.natAbs
  unfold intToStr
  split
  · simp; exact this
  · omega

theorem reopened_same {g g2 : Gx} {f : List UInt8} (h : Reopened 0 g f g2) : SameTables g g2 := by
  have hs := symAt_reopened h
  obtain ⟨l, hl1, hl2⟩ := h.names
  obtain ⟨u, hu1, hu2, hu3⟩ := h.uel
  obtain ⟨t, ht1, ht2⟩ := h.texts rfl
  obtain ⟨a, ha1, ha2⟩ := h.acros
  obtain ⟨d, hd1, hd2⟩ := h.doms
  have hnm : (l.map Sym.reopened).map Sym.name = l.map Sym.name := by rw [List.map_map]; rfl
  have hst : ({ Uel.empty with ents := u.strs.map (·, -1) } : Uel).strs = u.strs := by
    show (u.strs.map (·, (-1 : Int))).map Prod.fst = _
    rw [List.map_map]
    exact List.map_id' _
  constructor
  case counts =>
    unfold systemInfo
    rw [hl1, hl2, hu1, hu2]
    simp [Uel.size, Uel.strs]
  case info =>
    intro n
    unfold symbolInfo
    rw [hs]
    cases g.symAt n <;> rfl
  case infoX =>
    intro n hn
    unfold symbolInfoX
    rw [hs, if_neg hn, if_neg hn]
    cases g.symAt n <;> rfl
  case univ =>
    show g2.uelOrig = _
    unfold systemInfo
    rw [hu3, hu1]
    rfl
  case find =>
    intro s
    unfold findSymbol
    rw [hl1, hl2]
    have : symIndex (l.map Sym.reopened) s = symIndex l s := by unfold symIndex; rw [hnm]
    simp only [this]
  case hasText =>
    intro n
    unfold setHasText
    rw [hs]
    cases g.symAt n <;> rfl
  case comment =>
    intro nr n
    unfold symbolGetComment
    rw [hs]
    cases g.symAt nr <;> rfl
  case domain =>
    intro n g1 x hx
    unfold symbolGetDomain at hx ⊢
    rw [hl1] at hx
    rw [hl2, hs]
    simp only [need, Res.bind_ok] at hx ⊢
    cases he : g.symAt n with
    | none => rw [he] at hx; cases hx; exact ⟨_, rfl⟩
    | some s => rw [he] at hx; cases hx; exact ⟨_, rfl⟩
  case domainX =>
    intro n g1 x hx
    unfold symbolGetDomainX at hx ⊢
    rw [hl1] at hx
    rw [hl2, hs]
    simp only [need, Res.bind_ok] at hx ⊢
    cases he : g.symAt n with
    | none => rw [he] at hx; cases hx; exact ⟨_, rfl⟩
    | some s =>
      rw [he] at hx
      simp only [Option.map_some] at hx ⊢
      have e1 : s.reopened.domStrs = s.domStrs := rfl
      have e2 : s.reopened.domSyms = s.domSyms := rfl
      have e3 : s.reopened.dim = s.dim := rfl
      rw [e1, e2, e3, hd2, hnm]
      rw [hd1] at hx
      cases h1 : s.domStrs with
      | some ds =>
        rw [h1] at hx
        simp only [need, Res.bind_ok] at hx ⊢
        obtain ⟨r, hr, hx⟩ := Res.bind_eq_ok.mp hx
        rw [hr]
        cases hx
        exact ⟨_, rfl⟩
      | none =>
        rw [h1] at hx
        cases h2 : s.domSyms with
        | none => rw [h2] at hx; cases hx; exact ⟨_, rfl⟩
        | some ds =>
          rw [h2] at hx
          simp only at hx ⊢
          obtain ⟨r, hr, hx⟩ := Res.bind_eq_ok.mp hx
          rw [hr]
          cases hx
          exact ⟨_, rfl⟩
  case element =>
    intro n s m hx
    unfold umUelGet at hx ⊢
    rw [hu1] at hx
    rw [hu2]
    simp only at hx ⊢
    split at hx
    · rename_i hn
      rw [if_pos (by simpa [Uel.size, Uel.strs] using hn)]
      obtain ⟨s1, hs1, hx⟩ := Res.bind_eq_ok.mp hx
      obtain ⟨s2, hs2, hx⟩ := Res.bind_eq_ok.mp hx
      obtain ⟨m1, hm1, hx⟩ := Res.bind_eq_ok.mp hx
      cases hx
      unfold Uel.str at hs1
      obtain ⟨e, he, hs1⟩ := Res.bind_eq_ok.mp hs1
      cases hs1
      obtain ⟨h1, h2, h3⟩ := at1_ok he
      have : at1 (u.strs.map (·, (-1 : Int))) n = .ok (e.1, -1) := at1_of h1 (by
        rw [List.getElem?_map]
        unfold Uel.strs
        rw [List.getElem?_map, h3]
        rfl)
      unfold Uel.str Uel.userMap
      rw [this]
      simp only [Res.bind_ok, Res.pure_eq]
      rw [hs2]
      rfl
    · cases hx
  case elementNr =>
    intro s b n m hx
    unfold umFindUEL at hx ⊢
    rw [hu1] at hx
    rw [hu2]
    simp only at hx ⊢
    obtain ⟨s', hs', hx⟩ := Res.bind_eq_ok.mp hx
    rw [hs']
    simp only [Res.bind_ok]
    have hix : ({ Uel.empty with ents := u.strs.map (·, -1) } : Uel).indexOf s' = u.indexOf s' := by
      unfold Uel.indexOf
      rw [hst]
    rw [hix]
    split at hx
    · cases hx
      rename_i hn
      rw [if_pos hn]
      rfl
    · rename_i hn
      rw [if_neg hn]
      obtain ⟨m1, hm1, hx⟩ := Res.bind_eq_ok.mp hx
      cases hx
      unfold Uel.userMap at hm1 ⊢
      obtain ⟨e, he, hm1⟩ := Res.bind_eq_ok.mp hm1
      obtain ⟨h1, h2, h3⟩ := at1_ok he
      have : at1 (u.strs.map (·, (-1 : Int))) (u.indexOf s') = .ok (e.1, -1) := at1_of h1 (by
        rw [List.getElem?_map]
        unfold Uel.strs
        rw [List.getElem?_map, h3]
        rfl)
      rw [this]
      rfl
  case text =>
    intro n s dd hx
    unfold getElemText at hx ⊢
    rw [ht1] at hx
    rw [ht2]
    simp only at hx ⊢
    split at hx
    · rename_i hn
      rw [if_pos hn, List.getElem?_map]
      cases h1 : t[n.toNat]? with
      | none => rw [h1] at hx; cases hx
      | some p => rw [h1] at hx; cases hx; rfl
    · cases hx
  case textEnd =>
    intro n hx
    unfold getElemText at hx ⊢
    rw [ht1] at hx
    rw [ht2]
    simp only at hx ⊢
    split at hx
    · rename_i hn
      rw [if_pos hn, List.getElem?_map]
      cases h1 : t[n.toNat]? with
      | none => rfl
      | some p => rw [h1] at hx; cases hx
    · rename_i hn
      rw [if_neg hn]
  case acronyms =>
    unfold acronymCount
    rw [ha1, ha2]
    simp
  case acronym =>
    intro n s tt i hx hne
    unfold acronymGetInfo at hx ⊢
    rw [ha1] at hx
    rw [ha2]
    simp only [need, Res.bind_ok, List.length_map] at hx ⊢
    split at hx
    · cases hx
    · rename_i hn
      rw [if_neg hn]
      obtain ⟨x, hx1, hx⟩ := Res.bind_eq_ok.mp hx
      obtain ⟨s1, hs1, hx⟩ := Res.bind_eq_ok.mp hx
      obtain ⟨t1, ht1, hx⟩ := Res.bind_eq_ok.mp hx
      cases hx
      obtain ⟨h1, h2, h3⟩ := at1_ok hx1
      have : at1 (a.map Acr.reopened) n = .ok x.reopened := at1_of h1 (by rw [List.getElem?_map, h3]; rfl)
      have hxn : x.name = s := by
        unfold fits at hs1
        split at hs1
        · cases hs1; rfl
        · cases hs1
      rw [this]
      simp only [Res.bind_ok]
      have hn : x.reopened.name = x.name := by
        show x.saveName = _
        unfold Acr.saveName
        rw [if_neg (by rw [hxn]; exact hne)]
      rw [hn, hs1]
      simp only [Res.bind_ok]
      rw [show x.reopened.text = x.text from rfl, ht1]
      rfl
  case unnamed =>
    intro n tt i hx
    unfold acronymGetInfo at hx ⊢
    rw [ha1] at hx
    rw [ha2]
    simp only [need, Res.bind_ok, List.length_map] at hx ⊢
    split at hx
    · cases hx
    · rename_i hn
      rw [if_neg hn]
      obtain ⟨x, hx1, hx⟩ := Res.bind_eq_ok.mp hx
      obtain ⟨s1, hs1, hx⟩ := Res.bind_eq_ok.mp hx
      obtain ⟨t1, ht1, hx⟩ := Res.bind_eq_ok.mp hx
      cases hx
      obtain ⟨h1, h2, h3⟩ := at1_ok hx1
      have : at1 (a.map Acr.reopened) n = .ok x.reopened := at1_of h1 (by rw [List.getElem?_map, h3]; rfl)
      have hxn : x.name = [] := by
        unfold fits at hs1
        split at hs1
        · injection hs1
        · cases hs1
      rw [this]
      simp only [Res.bind_ok]
      have hn : x.reopened.name = unknownACRO ++ intToStr x.map := by
        show x.saveName = _
        unfold Acr.saveName
        rw [if_pos hxn]
      rw [hn]
      have hfit : fits 64 (unknownACRO ++ intToStr x.map) = .ok (unknownACRO ++ intToStr x.map) := by
        unfold fits
        rw [if_pos]
        have := intToStr_length x.map
        rw [List.length_append, show unknownACRO.length = 11 from rfl]
        omega
      rw [hfit]
      simp only [Res.bind_ok]
      rw [show x.reopened.text = x.text from rfl, ht1]
      rfl

/-- C06: whatever calls led to an object that is writing a file (`hi`: files opened on the way had a correct content), after
    gdxClose any object that has no file open can open the file, without error, and all queries about symbols, elements,
    texts, domains, comments and acronyms give the same answers. Assumed: the numbers fit into the fields of the file
    (fewer than 2^31 symbols, elements, texts, acronyms, domain strings, comments per symbol, errors per symbol; file smaller
    than 2^63 bytes), and closing does not run into undefined behaviour (a comment of more than 255 bytes, see C35_long). -/
theorem C06_reopen {e : Env} {z : Cz} (hz : z.Good) {cs : List Call} (hc : ∀ c ∈ cs, c.WF)
    (hi : OpensOk Inv e z Gx.new cs) {g g' : Gx} {r : Int} (hr : run e z Gx.new cs = .ok g)
    (hm : g.mode = .wInit) (hcl : gdxClose z g = .ok (g', r))
    (hf : FileFits g) (hl : (g'.file.length : Int) ≤ 9223372036854775807) {g0 : Gx} (h0 : g0.mode = .notOpen) :
    ∃ g2, openRead z g0 (.content g'.file) = .ok (g2, (true, 0)) ∧ errorCount g2 = 0 ∧ SameTables g g2 := by
  have := ((Inv.run e z cs Gx.new hc aft_new Inv.new hi).of_ok hr).2
  have hs : g.stat = .write := ((Phased.run e z cs Gx.new Phased.new).of_ok hr).stat (Or.inl (Or.inl hm))
  obtain ⟨g2, h1, h2, _⟩ := close_open hz this hm hs hcl hf hl g0 h0 0
  exact ⟨g2, h1, h2.err.2.2, reopened_same h2⟩

/-- C06: the same for histories that open only files written by the library (and closed in the way just described) -/
theorem C06_own {e : Env} {z : Cz} (hz : z.Good) {cs : List Call} (hc : ∀ c ∈ cs, c.WF)
    (hi : OpensOwn z cs) {g g' : Gx} {r : Int} (hr : run e z Gx.new cs = .ok g)
    (hm : g.mode = .wInit) (hcl : gdxClose z g = .ok (g', r))
    (hf : FileFits g) (hl : (g'.file.length : Int) ≤ 9223372036854775807) {g0 : Gx} (h0 : g0.mode = .notOpen) :
    Own z g'.file ∧
    ∃ g2, openRead z g0 (.content g'.file) = .ok (g2, (true, 0)) ∧ errorCount g2 = 0 ∧ SameTables g g2 := by
  have ho := opensOk_own hz e cs Gx.new hc aft_new Inv.new hi
  have := ((Inv.run e z cs Gx.new hc aft_new Inv.new ho).of_ok hr).2
  have hs : g.stat = .write := ((Phased.run e z cs Gx.new Phased.new).of_ok hr).stat (Or.inl (Or.inl hm))
  exact ⟨⟨g, g', r, this, hm, hs, hcl, hf, hl, rfl⟩, C06_reopen hz hc ho hr hm hcl hf hl h0⟩

/-- a file with two symbols, elements, texts, a domain, a comment and an acronym, closed and opened again; also by appending -/
example : after [.openWrite false 0 [65] 0, .uelRawStart, .uelRaw [97], .uelRaw [98], .uelDone, .addSetText [116],
      .rawStart [105] [101] 1 0 7, .addComment 0 [99], .writeRaw [2] [0], .writeDone, .rawStart [112] [] 1 1 0,
      .setDomain [[105]], .writeRaw [2] [0], .writeDone, .acronymAdd [88] [] 5, .close]
    (fun g => do
      let (g2, r) ← openRead Cz.id Gx.new (.content g.file)
      let c ← symbolGetComment g2 1 1
      let (_, d) ← symbolGetDomainX g2 2
      let a ← acronymGetInfo g2 1
      pure [r == (true, 0), systemInfo g2 == (2, 2), symbolInfo g2 1 == ⟨true, [105], 1, 0⟩, symbolInfoX g2 1 == ⟨true, 1, 7, [101]⟩,
        c == (true, [99]), d == (3, [[105]]), a == some ([88], [], 5), getElemText g2 1 == (true, [116], 0)]) =
    .ok [true, true, true, true, true, true, true, true] := by decide +kernel

/-! ### C47 -/

theorem dataWriteDone_mode {z : Cz} {g : Gx} (hm : Writing g.mode) : (dataWriteDone z g).All fun r => r.1.mode = .wInit := by
  have fin : ∀ g : Gx, (finishBlock z g).All fun g' => g'.mode = .wInit := by
    intro g
    unfold finishBlock
    refine Res.All.bind' ?_
    intro s _
    split
    · trivial
    refine Res.All.bind' ?_
    intro g1 _
    rfl
  unfold dataWriteDone
  have hc : g.chk [.wRaw, .wMap, .wStr, .wDomRaw, .wDomMap, .wDomStr] = (g, true) := by
    unfold Gx.chk
    rw [if_pos]
    simp only [Writing, List.mem_cons, List.mem_nil_iff, or_false] at hm ⊢
    tauto
  simp only [hc]
  rw [if_neg (by decide)]
  split
  · refine Res.All.bind' ?_
    intro g1 h1
    exact (fin g).of_ok h1
  · refine Res.All.bind' ?_
    intro s _
    refine Res.All.bind' ?_
    intro g1 _
    refine Res.All.bind' ?_
    intro rs _
    refine Res.All.bind' ?_
    intro g2 _
    refine Res.All.bind' ?_
    intro g3 h3
    exact (fin _).of_ok h3

/-- C47 (partial): gdxClose while records are being written is gdxDataWriteDone followed by gdxClose. Missing: the state
    directly after a Start call, where this fails, see `C47_counterexample`. -/
theorem C47_close_partial (z : Cz) (g : Gx) (hm : g.mode = .wRaw ∨ g.mode = .wMap ∨ g.mode = .wStr) :
    gdxClose z g = (do
      let r ← dataWriteDone z g
      gdxClose z r.1) := by
  have hw : Writing g.mode := by rcases hm with h | h | h <;> rw [h] <;> decide
  have h0 : finishWrite z g = (do let r ← dataWriteDone z g; pure r.1) := by unfold finishWrite; rw [if_pos hm]
  unfold gdxClose
  rw [h0]
  cases h1 : dataWriteDone z g with
  | ub => rfl
  | ok r =>
    have h2 := (dataWriteDone_mode hw).of_ok h1
    have h3 : finishWrite z r.1 = .ok r.1 := by unfold finishWrite; rw [h2, if_neg (by decide)]
    simp only [Res.bind_ok, Res.pure_eq, h3]

/-- C47 fails directly after a Start call: gdxDataWriteDone is not called and neither the tables nor the index are written;
    the file cannot be opened, while gdxDataWriteDone followed by gdxClose gives a correct file. -/
theorem C47_counterexample :
    after [.openWrite false 0 [] 0, .rawStart [105] [] 1 0 0, .close]
      (fun g => do
        let (g2, r) ← openRead Cz.id Gx.new (.content g.file)
        pure [r == (false, Err.openBoi), systemInfo g2 == (0, 0)]) = .ok [true, true] ∧
    after [.openWrite false 0 [] 0, .rawStart [105] [] 1 0 0, .writeDone, .close]
      (fun g => do
        let (g2, r) ← openRead Cz.id Gx.new (.content g.file)
        pure [r == (true, 0), systemInfo g2 == (1, 0)]) = .ok [true, true] := by
  constructor <;> decide +kernel

/-- C47 also fails while elements are being registered (gdxUELRegisterRawStart without gdxUELRegisterDone) -/
theorem C47_counterexample_register :
    after [.openWrite false 0 [] 0, .rawStart [105] [] 1 0 0, .writeDone, .uelRawStart, .uelRaw [97], .close]
      (fun g => do
        let (_, r) ← openRead Cz.id Gx.new (.content g.file)
        pure r) = .ok (false, Err.openBoi) := by
  decide +kernel

/-- closing while records are being written -/
example : after [.openWrite false 0 [] 0, .uelRawStart, .uelRaw [97], .uelDone, .strStart [105] [] 1 0 0, .writeStr [[97]] [0], .close]
    (fun g => do
      let (g2, r) ← openRead Cz.id Gx.new (.content g.file)
      pure [r == (true, 0), symbolInfoX g2 1 == ⟨true, 1, 0, []⟩]) = .ok [true, true] := by decide +kernel

end Gdx.Props
