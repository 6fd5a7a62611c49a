import Verif.Proofs.Kept
import Verif.Proofs.BitArr

/-!
Writing a symbol in raw mode, with other calls in between.
-/

namespace Gdx

/-- One call of gdxDataWriteRaw: arguments, the special values in force, and the result. -/
structure RawEntry where
  key : List Int
  vals : List Dbl
  sv : SVTab
  ok : Bool
  deriving DecidableEq, Repr

/-- calls that may come between the records -/
def Call.between (c : Call) : Prop := c.quiet = true ∨ ∃ ids, c = .setDomain ids

/-- Calls of gdxDataWriteRaw, with other calls in between, lead from one object to another one. -/
inductive RawLog (e : Env) (z : Cz) : Gx → List RawEntry → Gx → Prop
  | nil (g : Gx) : RawLog e z g [] g
  | write {g g1 g2 : Gx} {key : List Int} {vals : List Dbl} {b : Bool} {l : List RawEntry}
      (h : dataWriteRaw g key vals = .ok (g1, b)) (hl : RawLog e z g1 l g2) : RawLog e z g (⟨key, vals, g.sv, b⟩ :: l) g2
  | other {g g1 g2 : Gx} {c : Call} {l : List RawEntry} (hc : c.between) (hw : c.WF) (h : step e z g c = .ok g1) (hl : RawLog e z g1 l g2) :
      RawLog e z g l g2

/-- the records that were logRecs, as they are stored -/
def logRecs (l : List RawEntry) : List Rec := (l.filter RawEntry.ok).map fun x => stored x.sv x.key x.vals

def RawMode (m : Mode) : Prop := m = .wRaw ∨ m = .wDomRaw

theorem RawMode.writing {m : Mode} (h : RawMode m) : Writing m := by rcases h with rfl | rfl <;> decide

theorem Blk.ses {g g' : Gx} {m : Nat} {rs : List Rec} (h : Blk g m rs) (hs : Ses g g') : Blk g' m rs := by
  have e := fun {α : Type} (f : SesCore → α) => congrArg f hs.ses
  obtain ⟨syms, s, e1, e2, e3, e4, e5⟩ := h.sym
  obtain ⟨syms', f1, _, f3, _⟩ := hs.names syms e1
  obtain ⟨s', f4, f5⟩ := f3 m s e2
  have h0 : Blk { g' with names := g.names } m rs :=
    h.congr (e SesCore.cur) rfl (e SesCore.curDim) (e SesCore.dataSize) (e SesCore.bounds) (e SesCore.last)
      (e SesCore.dataCount) (e SesCore.blk) (e SesCore.nextWrite)
  obtain ⟨a1, _, a3, a4, a5, a6, a7, a8, a9, a10⟩ := h0
  refine ⟨a1, ⟨syms', s', f1, f4, ?_, ?_, ?_⟩, a3, a4, a5, a6, a7, a8, a9, a10⟩
  · rw [f5.dim, e3]; exact (e SesCore.curDim).symm
  · rw [f5.typ, ← e4]; exact e SesCore.dataSize
  · rw [f5.pos, e5]; exact (e SesCore.nextWrite).symm

theorem Blk.noted {g g' : Gx} {m : Nat} {rs : List Rec} (h : Blk g m rs) (hn : Noted g g') : Blk g' m rs := by
  obtain ⟨a, b, c, d, w, rfl⟩ := hn
  exact h.congr rfl rfl rfl rfl rfl rfl rfl rfl rfl

theorem Blk.mode {g : Gx} {m : Nat} {rs : List Rec} (h : Blk g m rs) (md : Mode) : Blk { g with mode := md } m rs :=
  h.congr rfl rfl rfl rfl rfl rfl rfl rfl rfl

theorem Blk.setSym {g g' : Gx} {m : Nat} {rs : List Rec} (h : Blk g m rs) {syms : List Sym} {s s' : Sym} (hs : g.names = some syms)
    (hm : syms[m]? = some s) (h1 : s'.dim = s.dim) (h2 : s'.typ = s.typ) (h3 : s'.pos = s.pos)
    (hg : g' = { g with names := some (syms.set m s') }) : Blk g' m rs := by
  subst hg
  obtain ⟨syms', t, e1, e2, e3, e4, e5⟩ := h.sym
  rw [hs] at e1
  cases e1
  rw [hm] at e2
  cases e2
  obtain ⟨a1, _, a3, a4, a5, a6, a7, a8, a9, a10⟩ := h
  refine ⟨a1, ⟨_, s', rfl, ?_, h1.trans e3, ?_, h3.trans e5⟩, a3, a4, a5, a6, a7, a8, a9, a10⟩
  · rw [List.getElem?_set, if_pos rfl, if_pos (List.getElem?_eq_some_iff.mp hm).1]
  · rw [h2]; exact e4

/-- gdxDataWriteRaw while a symbol is written in raw mode -/
theorem dataWriteRaw_raw {g : Gx} (hr : RawMode g.mode) (key : List Int) (vals : List Dbl) :
    dataWriteRaw g key vals = doWrite { g with mode := .wRaw } key vals := by
  unfold dataWriteRaw
  have h1 : (if g.mode = .wDomRaw then ({ g with mode := .wRaw } : Gx) else g) = { g with mode := .wRaw } := by
    rcases hr with h | h
    · rw [if_neg (by rw [h]; decide), ← h]
    · rw [if_pos h]
  rw [h1]
  rcases chk_cases ({ g with mode := .wRaw } : Gx) [.wRaw] with ⟨_, hc⟩ | ⟨hc, _⟩
  · simp only [hc, Bool.true_eq_false, if_false]
  · exact absurd (List.mem_singleton.mpr rfl) hc

theorem doWrite_mode {g g' : Gx} {key : List Int} {vals : List Dbl} {b : Bool} (h : doWrite g key vals = .ok (g', b)) :
    g'.mode = g.mode := by
  obtain ⟨_, _, _, syms, bad, _, _, hh⟩ := doWrite_cases h
  rcases hh with ⟨_, rfl, rfl⟩ | ⟨_, o, _, ⟨_, rfl, rfl⟩ | ⟨_, rfl, rfl⟩ | ⟨bs, l, _, ha⟩⟩
  · obtain ⟨l, hl⟩ := addErrDom_same (g.raise Err.domainViolation) (List.zipWith (fun b k => if b then -k else k) bad key) vals
    rw [hl]; rfl
  · obtain ⟨l, hl⟩ := addErr_same (g.raise Err.dataDuplicate) key vals
    rw [hl]; rfl
  · obtain ⟨l, hl⟩ := addErr_same (g.raise Err.rawNotSorted) key vals
    rw [hl]; rfl
  · obtain ⟨rfl, hmax, acros, acros', n, syms, s, s', e1, e2, e3, e4, e5, e6, rfl⟩ := acceptRec_cases ha
    rfl

/-! ### what is known about the symbol -/

/-- the parts of a symbol that are given when it is begun -/
structure SymDesc where
  name : Str
  dim : Int
  typ : Nat
  ui : Int
  deriving DecidableEq, Repr

structure SymDesc.Of (d : SymDesc) (s : Sym) : Prop where
  name : s.name = d.name
  dim : s.dim = d.dim
  typ : s.typ = d.typ
  ui : s.userInfo = d.ui

theorem SymDesc.Of.same {d : SymDesc} {s s' : Sym} (h : d.Of s) (e : SymSame s s') : d.Of s' :=
  ⟨e.name.trans h.name, e.dim.trans h.dim, e.typ.trans h.typ, e.ui.trans h.ui⟩

/-- an accepted record as it was given: indices and values -/
abbrev Given := List Int × List Dbl

/-- does a record of a set have a text? -/
def Given.text (x : Given) : Bool :=
  match x.2 with
  | [] => false
  | v :: _ => nonZero v

/-- What the records `l` leave at the symbol -/
structure SymLog (s : Sym) (l : List Given) : Prop where
  typ : s.typ ≤ 3
  txt : s.setText = (decide (s.typ = dtSet) && l.any Given.text)
  bits : ∀ b, s.bitmap = some b → s.typ = dtSet ∧ b.Inv ∧ ∀ k, b.get k = true ↔ 0 ≤ k ∧ ∃ x ∈ l, x.1 = [k]

theorem SymLog.same {s s' : Sym} {l : List Given} (h : SymLog s l) (e : SymSame s s') : SymLog s' l := by
  obtain ⟨h1, h2, h3⟩ := h
  exact ⟨by rw [e.typ]; exact h1, by rw [e.txt, e.typ]; exact h2, by rw [e.bits, e.typ]; exact h3⟩

theorem SymLog.note {s s' : Sym} {l : List Given} (h : SymLog s l) {key : List Int} {vals : List Dbl}
    (hn : noteElem key vals s = .ok s') : SymLog s' (l ++ [(key, vals)]) := by
  have htyp := h.typ
  unfold noteElem at hn
  split at hn
  · rename_i hc
    have hset : s.typ = dtSet := by
      rcases hc with hc | hc
      · exact hc
      · rw [hc] at htyp
        exact absurd htyp (by decide)
    obtain ⟨x, hx, hn2⟩ := Res.bind_eq_ok.mp hn
    clear hn
    obtain ⟨vs, rfl⟩ : ∃ vs, vals = x :: vs := by
      cases vals with
      | nil => cases hx
      | cons v vs => cases hx; exact ⟨vs, rfl⟩
    have htx : (if nonZero x = true then ({ s with setText := true } : Sym) else s) =
        { s with setText := s.setText || nonZero x } := by
      split
      · rename_i h1; rw [h1, Bool.or_true]
      · rename_i h1
        rw [Bool.eq_false_iff.mpr h1, Bool.or_false]
    dsimp only at hn2
    rw [htx] at hn2
    have hany : (l ++ [(key, x :: vs)]).any Given.text = (l.any Given.text || nonZero x) := by
      simp [Given.text]
    have ht : (s.setText || nonZero x) = (decide (s.typ = dtSet) && (l ++ [(key, x :: vs)]).any Given.text) := by
      rw [hany, h.txt, hset]
      simp
    simp only at hn2
    split at hn2
    · rename_i k b hb
      obtain ⟨b', hb', hn3⟩ := Res.bind_eq_ok.mp hn2
      cases hn3
      refine ⟨h.typ, ht, ?_⟩
      rintro b'' ⟨⟩
      obtain ⟨h1, h2, h3⟩ := h.bits b hb
      obtain ⟨h4, h5⟩ := BitArr.set_true_ok h2 hb'
      refine ⟨h1, h4, ?_⟩
      intro i
      rw [h5 i]
      by_cases hi : i = k ∧ 0 ≤ k
      · rw [if_pos hi]
        obtain ⟨rfl, hi⟩ := hi
        exact ⟨fun _ => ⟨hi, ([i], x :: vs), by simp, rfl⟩, fun _ => rfl⟩
      · rw [if_neg hi, h3 i]
        constructor
        · rintro ⟨a, y, hy, e⟩
          exact ⟨a, y, by simp [hy], e⟩
        · rintro ⟨a, y, hy, e⟩
          refine ⟨a, ?_⟩
          rcases List.mem_append.mp hy with hy | hy
          · exact ⟨y, hy, e⟩
          · rw [List.mem_singleton] at hy
            subst hy
            cases e
            exact absurd ⟨rfl, a⟩ hi
    · rename_i hno
      cases hn2
      refine ⟨h.typ, ht, ?_⟩
      intro b hb
      obtain ⟨h1, h2, h3⟩ := h.bits b hb
      refine ⟨h1, h2, ?_⟩
      intro i
      rw [h3 i]
      constructor
      · rintro ⟨a, y, hy, e⟩
        exact ⟨a, y, by simp [hy], e⟩
      · rintro ⟨a, y, hy, e⟩
        refine ⟨a, ?_⟩
        rcases List.mem_append.mp hy with hy | hy
        · exact ⟨y, hy, e⟩
        · rw [List.mem_singleton] at hy
          subst hy
          exact absurd hb (by intro hb; exact hno i b e hb)
  · rename_i hc
    cases hn
    have hns : ¬ s.typ = dtSet := fun h => hc (Or.inl h)
    refine ⟨h.typ, ?_, ?_⟩
    · rw [h.txt, decide_eq_false hns]
      rfl
    · intro b hb
      exact absurd (h.bits b hb).1 hns

/-- A symbol is being written: number `m` (from 0), description, stored records, and how these were given -/
structure Sess (g : Gx) (m : Nat) (d : SymDesc) (rs : List Rec) (l : List Given) : Prop where
  blk : Blk g m rs
  sym : ∃ syms s, g.names = some syms ∧ syms[m]? = some s ∧ d.Of s ∧ SymLog s l

theorem Sess.set {g g' : Gx} {m : Nat} {d : SymDesc} {rs rs' : List Rec} {l l' : List Given} (h : Sess g m d rs l) (hb : Blk g' m rs')
    {syms : List Sym} {s s' : Sym} (hs : g.names = some syms) (hm : syms[m]? = some s) (hg : g'.names = some (syms.set m s'))
    (h1 : d.Of s → d.Of s') (h2 : SymLog s l → SymLog s' l') : Sess g' m d rs' l' := by
  obtain ⟨_, t, e1, e2, e3, e4⟩ := h.sym
  rw [hs] at e1
  cases e1
  rw [hm] at e2
  cases e2
  refine ⟨hb, _, s', hg, ?_, h1 e3, h2 e4⟩
  rw [List.getElem?_set, if_pos rfl, if_pos (List.getElem?_eq_some_iff.mp hm).1]

theorem Sess.keep {g g' : Gx} {m : Nat} {d : SymDesc} {rs rs' : List Rec} {l : List Given} (h : Sess g m d rs l) (hb : Blk g' m rs')
    (hg : g'.names = g.names) : Sess g' m d rs' l :=
  ⟨hb, by rw [hg]; exact h.sym⟩

theorem Sess.ses {g g' : Gx} {m : Nat} {d : SymDesc} {rs : List Rec} {l : List Given} (h : Sess g m d rs l) (hs : Ses g g') :
    Sess g' m d rs l := by
  obtain ⟨syms, s, e1, e2, e3, e4⟩ := h.sym
  obtain ⟨syms', f1, _, f3, _⟩ := hs.names syms e1
  obtain ⟨s', f4, f5⟩ := f3 m s e2
  exact ⟨h.blk.ses hs, syms', s', f1, f4, e3.same f5, e4.same f5⟩

theorem Sess.mode {g : Gx} {m : Nat} {d : SymDesc} {rs : List Rec} {l : List Given} (h : Sess g m d rs l) (md : Mode) :
    Sess { g with mode := md } m d rs l := ⟨h.blk.mode md, h.sym⟩

/-- SetDomain while a symbol is written in raw mode -/
theorem Sess.setDomain {g : Gx} {m : Nat} {d : SymDesc} {rs : List Rec} {l : List Given} (h : Sess g m d rs l) (hr : RawMode g.mode)
    (ids : List Str) : (symbolSetDomain g ids).All fun r => Sess r.1 m d rs l ∧ RawMode r.1.mode := by
  refine (symbolSetDomain_cases g ids).mono ?_
  rintro ⟨g', b⟩ ⟨g1, hn, ⟨rfl, _⟩ | ⟨k, syms, s, dl, e1, e2, e3, e4, e5⟩⟩
  · obtain ⟨a, b', c, d', w, rfl⟩ := hn
    exact ⟨h.keep (h.blk.congr rfl rfl rfl rfl rfl rfl rfl rfl rfl) rfl, hr⟩
  · have hk : k = m := by
      rw [h.blk.cur] at e1
      cases e1
      rfl
    subst hk
    have h1 := h.blk.noted hn
    have hn1 : g1.names = some syms ∧ g1.mode = g.mode := by
      obtain ⟨a, b', c, d', w, rfl⟩ := hn
      exact ⟨e2, rfl⟩
    have ho : d.Of s → d.Of { s with domSyms := some dl } := fun h => ⟨h.name, h.dim, h.typ, h.ui⟩
    have hl : SymLog s l → SymLog { s with domSyms := some dl } l := fun h => ⟨h.typ, h.txt, h.bits⟩
    rcases e5 with e5 | e5
    · simp only at e5
      subst e5
      refine ⟨h.set (h1.setSym hn1.1 e3 (s' := { s with domSyms := some dl }) rfl rfl rfl rfl) e2 e3 rfl ho hl, ?_⟩
      show RawMode g1.mode
      rw [hn1.2]
      exact hr
    · simp only at e5
      subst e5
      refine ⟨h.set ((h1.setSym hn1.1 e3 (s' := { s with domSyms := some dl }) rfl rfl rfl rfl).mode g.mode.dataOf) e2 e3 rfl ho hl, ?_⟩
      show RawMode g.mode.dataOf
      rcases hr with h | h <;> rw [h] <;> exact Or.inl rfl

/-- a call in between -/
theorem Sess.between {e : Env} {z : Cz} {g g' : Gx} {m : Nat} {d : SymDesc} {rs : List Rec} {l : List Given} (h : Sess g m d rs l)
    (hr : RawMode g.mode) {c : Call} (hc : c.between) (hs : step e z g c = .ok g') :
    (Sess g' m d rs l ∧ RawMode g'.mode) ∨ InRead g' := by
  rcases hc with hq | ⟨ids, rfl⟩
  · have ha : AftOk g := fun he => absurd he hr.writing.ne
    rcases (step_tame e z g c hq ha).of_ok hs with ht | ⟨ht, hp⟩
    · exact Or.inr ht
    · refine Or.inl ⟨h.ses ht, ?_⟩
      rcases hp with ⟨p1, _⟩ | ⟨p, _⟩
      · rw [p1]; exact hr
      · exfalso
        rcases p with p | ⟨p, _⟩
        · rcases hr with hr | hr <;> rw [p] at hr <;> cases hr
        · exact hr.writing.ne p
  · exact Or.inl ((stateOf_all (P := fun g' => Sess g' m d rs l ∧ RawMode g'.mode) (h.setDomain hr ids)).of_ok hs)

/-- one record -/
theorem Sess.doWrite {g g' : Gx} {m : Nat} {d : SymDesc} {rs : List Rec} {l : List Given} (h : Sess g m d rs l) {key : List Int}
    {vals : List Dbl} {b : Bool} (hk : ∀ k ∈ key, 0 ≤ k) (hw : doWrite g key vals = .ok (g', b)) :
    ∃ syms bad, g.names = some syms ∧ domBad syms g.wrBits key = .ok bad ∧
      fateState g m bad key vals (fate g.nd (bad.any id) rs key) g' ∧ (b = true ↔ fate g.nd (bad.any id) rs key = .put) ∧
      Sess g' m d (if b then rs ++ [stored g.sv key vals] else rs) (if b then l ++ [(key, vals)] else l) := by
  obtain ⟨syms, bad, h1, h2, h3, h4, h5⟩ := h.blk.doWrite hk hw
  refine ⟨syms, bad, h1, h2, h3, h4, ?_⟩
  cases hf : fate g.nd (bad.any id) rs key with
  | put =>
    have hb := h4.mpr hf
    subst hb
    rw [hf] at h3
    obtain ⟨acros, acros', syms', s, s', bs, _, _, e3, e4, e5, e6⟩ := h3
    subst e6
    refine h.set h5 e3 e4 rfl ?_ (fun hl => hl.note e5)
    obtain ⟨t, bm, _, rfl⟩ := noteElem_ok e5
    exact fun h => ⟨h.name, h.dim, h.typ, h.ui⟩
  | dom =>
    have hb : b = false := by
      by_contra hc
      rw [h4.mp (Bool.not_eq_false _ ▸ hc), ] at hf
      cases hf
    subst hb
    rw [hf] at h3
    obtain ⟨x, hx⟩ := addErrDom_same (g.raise Err.domainViolation) (List.zipWith (fun b k => if b then -k else k) bad key) vals
    refine h.keep h5 ?_
    rw [h3, hx]; rfl
  | dup =>
    have hb : b = false := by
      by_contra hc
      rw [h4.mp (Bool.not_eq_false _ ▸ hc), ] at hf
      cases hf
    subst hb
    rw [hf] at h3
    obtain ⟨x, hx⟩ := addErr_same (g.raise Err.dataDuplicate) key vals
    refine h.keep h5 ?_
    rw [h3, hx]; rfl
  | unsorted =>
    have hb : b = false := by
      by_contra hc
      rw [h4.mp (Bool.not_eq_false _ ▸ hc), ] at hf
      cases hf
    subst hb
    rw [hf] at h3
    obtain ⟨x, hx⟩ := addErr_same (g.raise Err.rawNotSorted) key vals
    refine h.keep h5 ?_
    rw [h3, hx]; rfl

theorem Sess.writeRaw {g g' : Gx} {m : Nat} {d : SymDesc} {rs : List Rec} {l : List Given} (h : Sess g m d rs l) (hr : RawMode g.mode)
    {key : List Int} {vals : List Dbl} {b : Bool} (hk : ∀ k ∈ key, 0 ≤ k) (hw : dataWriteRaw g key vals = .ok (g', b)) :
    ∃ syms bad, g.names = some syms ∧ domBad syms g.wrBits key = .ok bad ∧
      fateState { g with mode := .wRaw } m bad key vals (fate g.nd (bad.any id) rs key) g' ∧
      (b = true ↔ fate g.nd (bad.any id) rs key = .put) ∧
      Sess g' m d (if b then rs ++ [stored g.sv key vals] else rs) (if b then l ++ [(key, vals)] else l) ∧ RawMode g'.mode := by
  rw [dataWriteRaw_raw hr] at hw
  obtain ⟨syms, bad, h1, h2, h3, h4, h5⟩ := (h.mode .wRaw).doWrite hk hw
  exact ⟨syms, bad, h1, h2, h3, h4, h5, Or.inl (doWrite_mode hw)⟩

/-- how the accepted records were given -/
def logGiven (l : List RawEntry) : List Given := (l.filter RawEntry.ok).map fun x => (x.key, x.vals)

theorem RawLog.inRead {e : Env} {z : Cz} {a b : Gx} {l : List RawEntry} (hl : RawLog e z a l b) : InRead a → InRead b := by
  induction hl with
  | nil g => exact fun h => h
  | write hw _ ih =>
    rename_i x1 x2 x3 key vals b l _
    intro hx
    exact ih (((hx.step e z (.writeRaw key vals) rfl).of_ok (by show stateOf _ = _; rw [hw]; rfl)))
  | other hc _ hs _ ih =>
    intro hx
    refine ih ((hx.step e z _ ?_).of_ok hs)
    rcases hc with hc | ⟨ids, rfl⟩
    · rename_i c _ _ _
      revert hc
      cases c <;> simp [Call.quiet, Call.inFile]
    · rfl

/-- all the calls -/
theorem Sess.rawLog {e : Env} {z : Cz} {g g' : Gx} {log : List RawEntry} (hl : RawLog e z g log g') : ∀ {m : Nat} {d : SymDesc}
    {rs : List Rec} {l : List Given}, Sess g m d rs l → RawMode g.mode → (∀ x ∈ log, ∀ k ∈ x.key, 0 ≤ k) → RawMode g'.mode →
    Sess g' m d (rs ++ logRecs log) (l ++ logGiven log) := by
  induction hl with
  | nil g => intro m d rs l h _ _ _; simpa [logRecs, logGiven] using h
  | write hw _ ih =>
    rename_i g1 g2 g3 key vals b log _
    intro m d rs l h hr hk hr'
    obtain ⟨_, _, _, _, _, _, h5, h6⟩ := h.writeRaw hr (hk ⟨key, vals, g1.sv, b⟩ (by simp)) hw
    have := ih h5 h6 (fun x hx => hk x (by simp [hx])) hr'
    cases b with
    | true => simpa [logRecs, logGiven] using this
    | false => simpa [logRecs, logGiven] using this
  | other hc _ hs hl ih =>
    rename_i g1 g2 g3 c log
    intro m d rs l h hr hk hr'
    rcases h.between hr hc hs with ⟨h1, h2⟩ | h1
    · exact ih h1 h2 hk hr'
    · exact absurd hr'.writing (hl.inRead h1).notWrite.2

theorem Inv.step {e : Env} {z : Cz} {g g' : Gx} {c : Call} (hc : c.WF) (ho : c.opensRead = false) (ha : Aft g) (h : Inv g)
    (hs : step e z g c = .ok g') : Aft g' ∧ Inv g' := by
  have h1 := Inv.run e z [c] g (by simpa using hc) ha h (opensOk_of e z [c] g (by simpa using ho))
  refine h1.of_ok (a := g') ?_
  show (Gdx.step e z g c >>= fun g => .ok g) = _
  rw [hs]
  rfl

theorem RawLog.inv {e : Env} {z : Cz} {g g' : Gx} {l : List RawEntry} (hl : RawLog e z g l g') : Aft g → Inv g → Aft g' ∧ Inv g' := by
  induction hl with
  | nil g => exact fun h1 h2 => ⟨h1, h2⟩
  | write hw _ ih =>
    rename_i g1 g2 g3 key vals b l _
    intro ha hi
    by_cases hk : ∀ x ∈ key, I32 x
    · obtain ⟨h1, h2⟩ := Inv.step (e := e) (z := z) (c := .writeRaw key vals) hk rfl ha hi (by show stateOf _ = _; rw [hw]; rfl)
      exact ih h1 h2
    · have : (g2 = (if g1.mode = .wDomRaw then { g1 with mode := .wRaw } else g1).raise Err.badMode) := by
        unfold dataWriteRaw at hw
        generalize hg : (if g1.mode = .wDomRaw then ({ g1 with mode := .wRaw } : Gx) else g1) = gg at hw ⊢
        rcases chk_cases gg [.wRaw] with ⟨_, hc⟩ | ⟨_, hc⟩
        · simp only [hc, Bool.true_eq_false, if_false] at hw
          exact absurd (doWrite_cases hw).2.2.1 hk
        · simp only [hc, if_true] at hw
          cases hw
          rfl
      obtain ⟨h1, h2⟩ := Inv.step (e := e) (z := z) (c := .writeRaw [] vals) (by intro x hx; cases hx) rfl ha hi (g' := g2) (by
        show stateOf (dataWriteRaw g1 [] vals) = _
        unfold dataWriteRaw at hw ⊢
        generalize hg : (if g1.mode = .wDomRaw then ({ g1 with mode := .wRaw } : Gx) else g1) = gg at hw this ⊢
        rcases chk_cases gg [.wRaw] with ⟨_, hc⟩ | ⟨_, hc⟩
        · simp only [hc, Bool.true_eq_false, if_false] at hw
          exact absurd (doWrite_cases hw).2.2.1 hk
        · simp only [hc, if_true]
          rw [this]
          rfl)
      exact ih h1 h2
  | other hc hw hs _ ih =>
    rename_i g1 g2 g3 c l _
    intro ha hi
    have ho : c.opensRead = false := by
      rcases hc with hc | ⟨ids, rfl⟩
      · revert hc
        cases c <;> simp [Call.quiet, Call.opensRead]
      · rfl
    obtain ⟨h1, h2⟩ := Inv.step hw ho ha hi hs
    exact ih h1 h2

end Gdx
