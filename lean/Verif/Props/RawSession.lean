import Verif.Props.Reads
import Verif.Props.Records
import Verif.Props.SymbolTable
import Verif.Props.Reopen
import Verif.Proofs.SortLog

/-!
Writing a symbol and reading it from the closed file, over whole histories of API calls (writing: raw mode; see SortSession for the others):
C01, C24, C37, C43, C49, C50, C51, C53, C54.
-/

namespace Gdx.Props

open Gdx Spec

/-- A history: any calls `cs` of a new object (files opened on the way were written by the library); then a symbol is begun in
    raw mode, with or without key bounds, as number `m + 1`, written, and finished. `log` has all calls of gdxDataWriteRaw with
    their results; other calls may come in between. Then any calls `cs2` that do not open or close files. -/
inductive Wrote (e : Env) (z : Cz) (name : Str) (dim typ ui : Int) (m : Nat) (log : List RawEntry) (g : Gx) : Prop
  | intro (cs cs2 : List Call) (syms : List Sym) (g0 g1 g2 g3 : Gx) (text : Str) (b : Bool)
      (hc : ∀ c ∈ cs, c.WF) (ho : OpensOwn z cs) (h0 : run e z Gx.new cs = .ok g0)
      (hn : g0.names = some syms) (hm : syms.length = m)
      (hw : ZFree name ∧ ZFree text ∧ I32 dim ∧ I32 typ ∧ I32 ui)
      (h1 : dataWriteRawStart g0 name text dim typ ui = .ok (g1, true) ∨
        ∃ bs, (∀ b ∈ bs, I32 b.1 ∧ I32 b.2) ∧ dataWriteRawStartKeyBounds g0 name text dim typ ui bs = .ok (g1, true))
      (h2 : RawLog e z g1 log g2) (hr : RawMode g2.mode) (hk : ∀ x ∈ log, ∀ k ∈ x.key, 0 ≤ k)
      (h3 : dataWriteDone z g2 = .ok (g3, b))
      (hc2 : ∀ c ∈ cs2, c.WF ∧ c.inFile = true) (h4 : run e z g3 cs2 = .ok g)

/-- an object that can open the file: not open, no renumbering of texts or acronyms left from a previous file -/
structure Reader (g : Gx) : Prop where
  mode : g.mode = .notOpen
  text : g.mapText = none
  auto : g.nextAuto ≤ 0

theorem inFile_stays {c : Call} (h : c.inFile = true) : c.opensRead = false := by
  revert h
  cases c <;> simp [Call.inFile, Call.opensRead]

theorem Wrote.kept {e : Env} {z : Cz} (hz : z.Good) {name : Str} {dim typ ui : Int} {m : Nat} {log : List RawEntry} {g : Gx}
    (h : Wrote e z name dim typ ui m log g) :
    Fine g ∧ (∀ x ∈ log, Spec.Distinct x.sv) ∧ (InRead g ∨ ∃ s, SymDesc.Of ⟨name, dim, typ.toNat, ui⟩ s ∧ SymLog s (logGiven log) ∧ Kept z m s (logRecs log) g) := by
  obtain ⟨cs, cs2, syms, g0, g1, g2, g3, text, b, hc, ho, h0, hn, hm, hw, h1, h2, hr, hk, h3, hc2, h4⟩ := h
  have f0 : Fine g0 := Fine.run hz hc ho Fine.new h0
  have f1 : Fine g1 ∧ g0.mode = .wInit ∧ RawMode g1.mode ∧ Sess g1 m ⟨name, dim, typ.toNat, ui⟩ [] [] := by
    rcases h1 with h1 | ⟨bs, hb, h1⟩
    · obtain ⟨a1, a2, syms', a3, a4⟩ := Sess.rawStart h1
      rw [hn] at a3
      cases a3
      exact ⟨f0.step (e := e) (z := z) (c := .rawStart name text dim typ ui) hw rfl (by show stateOf _ = _; rw [h1]; rfl), a1, a2, hm ▸ a4⟩
    · obtain ⟨a1, a2, syms', a3, a4⟩ := Sess.rawStartBounds h1
      rw [hn] at a3
      cases a3
      exact ⟨f0.step (e := e) (z := z) (c := .rawStartBounds name text dim typ ui bs) ⟨hw.1, hw.2.1, hw.2.2.1, hw.2.2.2.1, hw.2.2.2.2, hb⟩ rfl
        (by show stateOf _ = _; rw [h1]; rfl), a1, a2, hm ▸ a4⟩
  obtain ⟨f1, _, hr1, hs1⟩ := f1
  obtain ⟨f2, hsv⟩ := f1.rawLog h2
  have hs2 := hs1.rawLog h2 hr1 hk hr
  have hst : g2.stat = .write := f2.ph.stat (Or.inr hr.writing)
  obtain ⟨_, _, s, a1, a2, a3⟩ := hs2.done hr f2.inv hst h3
  have f3 : Fine g3 := f2.step (e := e) (z := z) (c := .writeDone) trivial rfl (by show stateOf _ = _; rw [h3]; rfl)
  refine ⟨f3.stay (fun c hc => (hc2 c hc).1) (fun c hc => inFile_stays (hc2 c hc).2) h4, ?_, ?_⟩
  · intro x hx
    by_contra hd
    have := hsv x hx
    rw [(C05_set x.sv).2 hd] at this
    cases this
  · rcases a3.run e cs2 g3 g (fun c hc => (hc2 c hc).2) h4 with hx | hx
    · exact Or.inr ⟨s, a1, by simpa using a2, by simpa using hx⟩
    · exact Or.inl hx

/-- the accepted records -/
def acceptedOf (log : List RawEntry) : List RawEntry := log.filter RawEntry.ok

/-- the record as it is in the list of accepted records -/
def entryOf (sv : SVTab) (x : Given) : RawEntry := ⟨x.1, x.2, sv, true⟩

/-- A history like `Wrote`, but the symbol is written in the mapped or in the string mode. `its` are the accepted records with element
    numbers as keys (`SortLog`), `doms` the domains that are checked when the symbol is finished, `ss` the records in the order of
    their keys (records with equal keys in the order in which they were written), and `acc` those of them that get into the file
    (`storedOf`: those within the domains and, of equal keys, the first). The table of elements is smaller than 2^31 - 256. -/
inductive WroteSorted (e : Env) (z : Cz) (name : Str) (dim typ ui : Int) (m : Nat) (acc : List RawEntry) (g : Gx) : Prop
  | intro (cs cs2 : List Call) (syms : List Sym) (g0 g1 g2 g3 : Gx) (text : Str) (b : Bool) (its ss : List Given) (doms : List Dom)
      (hc : ∀ c ∈ cs, c.WF) (ho : OpensOwn z cs) (h0 : run e z Gx.new cs = .ok g0)
      (hn : g0.names = some syms) (hm : syms.length = m)
      (hw : ZFree name ∧ ZFree text ∧ I32 dim ∧ I32 typ ∧ I32 ui)
      (h1 : dataWriteMapStart g0 name text dim typ ui = .ok (g1, true) ∨ dataWriteStrStart g0 name text dim typ ui = .ok (g1, true))
      (h2 : SortLog e z g1 its g2) (hr : SortMode g2.mode) (ht : TabFits g2) (hl : (its.length : Int) ≤ intMax)
      (hd : DomsFix g2 m doms) (hss : StableSorted Prod.fst its ss)
      (h3 : dataWriteDone z g2 = .ok (g3, b))
      (hc2 : ∀ c ∈ cs2, c.WF ∧ c.inFile = true) (h4 : run e z g3 cs2 = .ok g)
      (ha : acc = (storedOf doms dim.toNat none ss).map (entryOf g2.sv))

/-- A history in which a symbol was written as number `m + 1`, in any mode; `acc` are the records that got into the file, in their
    order in the file, with the special values that were set for writing. -/
inductive Written (e : Env) (z : Cz) (name : Str) (dim typ ui : Int) (m : Nat) (acc : List RawEntry) (g : Gx) : Prop
  | raw (log : List RawEntry) (h : Wrote e z name dim typ ui m log g) (ha : acc = acceptedOf log)
  | sorted (h : WroteSorted e z name dim typ ui m acc g)

theorem fine_names {g : Gx} (f : Fine g) (hm : g.mode = .wInit) : g.uel.isSome = true := (f.inv.head (f.stat hm)).tabs.uel

theorem distinct_of {g : Gx} (f : Fine g) : Spec.Distinct g.sv := by
  by_contra hd
  have := f.sv
  unfold SvOk at this
  rw [(C05_set g.sv).2 hd] at this
  cases this

theorem WroteSorted.kept {e : Env} {z : Cz} (hz : z.Good) {name : Str} {dim typ ui : Int} {m : Nat} {acc : List RawEntry} {g : Gx}
    (h : WroteSorted e z name dim typ ui m acc g) :
    Fine g ∧ (∀ x ∈ acc, Spec.Distinct x.sv) ∧ (InRead g ∨ ∃ s, SymDesc.Of ⟨name, dim, typ.toNat, ui⟩ s ∧
      SymLog s (acc.map fun x => (x.key, x.vals)) ∧ Kept z m s (acc.map fun x => stored x.sv x.key x.vals) g) := by
  obtain ⟨cs, cs2, syms, g0, g1, g2, g3, text, b, its, ss, doms, hc, ho, h0, hn, hm, hw, h1, h2, hr, ht, hl, hd, hss, h3, hc2, h4, ha⟩ := h
  have f0 : Fine g0 := Fine.run hz hc ho Fine.new h0
  have f1 : Fine g1 ∧ SortMode g1.mode ∧ (StrMode g1.mode → StrOk g1) ∧ Coll g1 m ⟨name, dim, typ.toNat, ui⟩ [] := by
    rcases h1 with h1 | h1
    · obtain ⟨_, a2, syms', a3, a4, _⟩ := Coll.mapStart h1 (fine_names f0)
      rw [hn] at a3
      cases a3
      refine ⟨f0.step (e := e) (z := z) (c := .mapStart name text dim typ ui) hw rfl (by show stateOf _ = _; rw [h1]; rfl), Or.inl a2, ?_, hm ▸ a4⟩
      intro hs
      exfalso
      rcases a2 with a2 | a2 <;> rcases hs with hs | hs <;> rw [a2] at hs <;> cases hs
    · obtain ⟨_, a2, syms', a3, a4, _, a5⟩ := Coll.strStart h1 (fine_names f0)
      rw [hn] at a3
      cases a3
      exact ⟨f0.step (e := e) (z := z) (c := .strStart name text dim typ ui) hw rfl (by show stateOf _ = _; rw [h1]; rfl), Or.inr a2, fun _ => a5, hm ▸ a4⟩
  obtain ⟨f1, hr1, hp1, hs1⟩ := f1
  have f2 := h2.fine f1
  have hs2 := hs1.log h2 hr1 hp1 f1 ht hr
  rw [List.nil_append] at hs2
  have hst : g2.stat = .write := f2.ph.stat (Or.inr hr.writing)
  obtain ⟨ss', g3', a1, a2, _, _, _, _, s, a3, a4, a5⟩ := hs2.done (z := z) hr f2.inv hst ht hl hd
  rw [h3] at a2
  cases a2
  have hu := a1.unique hss
  subst hu
  have hnd : g2.nd = dim.toNat := by
    obtain ⟨syms', s', e1, e2, e3, _⟩ := hs2.beg.sym
    obtain ⟨syms'', s'', e4, e5, e6, _⟩ := hs2.sym
    rw [e1] at e4
    cases e4
    rw [e2] at e5
    cases e5
    unfold Gx.nd
    rw [← e3]
    exact congrArg Int.toNat e6.dim
  rw [hnd] at a4 a5
  have f3 : Fine g3 := f2.step (e := e) (z := z) (c := .writeDone) trivial rfl (by show stateOf _ = _; rw [h3]; rfl)
  refine ⟨f3.stay (fun c hc => (hc2 c hc).1) (fun c hc => inFile_stays (hc2 c hc).2) h4, ?_, ?_⟩
  · intro x hx
    rw [ha] at hx
    obtain ⟨y, _, rfl⟩ := List.mem_map.mp hx
    exact distinct_of f2
  · have e1 : acc.map (fun x => (x.key, x.vals)) = storedOf doms dim.toNat none ss' := by
      rw [ha, List.map_map]
      exact List.map_id _
    have e2 : (acc.map fun x => stored x.sv x.key x.vals) = (storedOf doms dim.toNat none ss').map fun x => stored g2.sv x.1 x.2 := by
      rw [ha, List.map_map]
      rfl
    rw [e1, e2]
    rcases a5.run e cs2 g3 g (fun c hc => (hc2 c hc).2) h4 with hx | hx
    · exact Or.inr ⟨s, a3, a4, hx⟩
    · exact Or.inl hx

theorem Written.kept {e : Env} {z : Cz} (hz : z.Good) {name : Str} {dim typ ui : Int} {m : Nat} {acc : List RawEntry} {g : Gx}
    (h : Written e z name dim typ ui m acc g) :
    Fine g ∧ (∀ x ∈ acc, Spec.Distinct x.sv) ∧ (InRead g ∨ ∃ s, SymDesc.Of ⟨name, dim, typ.toNat, ui⟩ s ∧
      SymLog s (acc.map fun x => (x.key, x.vals)) ∧ Kept z m s (acc.map fun x => stored x.sv x.key x.vals) g) := by
  cases h with
  | raw log h ha =>
    subst ha
    obtain ⟨h1, h2, h3⟩ := h.kept hz
    exact ⟨h1, fun x hx => h2 x (List.mem_filter.mp hx).1, h3⟩
  | sorted h => exact h.kept hz

/-- further calls that leave the file open -/
theorem Written.more {e : Env} {z : Cz} {name : Str} {dim typ ui : Int} {m : Nat} {acc : List RawEntry} {g g' : Gx} {ds : List Call}
    (h : Written e z name dim typ ui m acc g) (hd : ∀ c ∈ ds, c.WF ∧ c.inFile = true) (hr : run e z g ds = .ok g') :
    Written e z name dim typ ui m acc g' := by
  have happ : ∀ cs2 : List Call, (∀ c ∈ cs2, c.WF ∧ c.inFile = true) → ∀ c ∈ cs2 ++ ds, c.WF ∧ c.inFile = true := by
    intro cs2 h2 c hc
    rcases List.mem_append.mp hc with hc | hc
    · exact h2 c hc
    · exact hd c hc
  cases h with
  | raw log h ha =>
    obtain ⟨cs, cs', syms', a0, a1, a2, a3, text', b, b1, b2, b3, b4, b5, b6, b7, b8, b9, b10, b11, b12, b13⟩ := h
    exact .raw log ⟨cs, cs' ++ ds, syms', a0, a1, a2, a3, text', b, b1, b2, b3, b4, b5, b6, b7, b8, b9, b10, b11, happ _ b12, by
      rw [run_append, b13]; exact hr⟩ ha
  | sorted h =>
    obtain ⟨cs, cs', syms', a0, a1, a2, a3, text', b, its, ss, doms, b1, b2, b3, b4, b5, b6, b7, b8, b9, b10, b11, b12, b13, b14, b15, b16, b17⟩ := h
    exact .sorted ⟨cs, cs' ++ ds, syms', a0, a1, a2, a3, text', b, its, ss, doms, b1, b2, b3, b4, b5, b6, b7, b8, b9, b10, b11, b12, b13, b14,
      happ _ b15, by rw [run_append, b16]; exact hr, b17⟩

/-- The file that `g` is writing is closed, and opened by some object, which then is `g2`. The numbers of the file fit into their
    fields (see `FileFits`; file smaller than 2^63 bytes). -/
inductive Reopens (z : Cz) (g g2 : Gx) : Prop
  | intro (g0 g' : Gx) (k : Int) (hm : g.mode = .wInit) (hc : gdxClose z g = .ok (g', k)) (hf : FileFits g)
      (hl : (g'.file.length : Int) ≤ 9223372036854775807) (h0 : Reader g0)
      (ho : openRead z g0 (.content g'.file) = .ok (g2, (true, 0)))

/-- the symbol in the file that was opened again -/
theorem Written.loaded {e : Env} {z : Cz} (hz : z.Good) {name : Str} {dim typ ui : Int} {m : Nat} {acc : List RawEntry} {g g2 : Gx}
    (h : Written e z name dim typ ui m acc g) (hr : Reopens z g g2) :
    Loaded z g2 m ⟨name, dim, typ.toNat, ui⟩ acc ∧ g2.rsv = SVTab.default ∧ ∃ f, Reopened 0 g f g2 := by
  obtain ⟨g0, g', k, hm, hc, hf, hl, h0, ho⟩ := hr
  obtain ⟨f, hsv, hk⟩ := h.kept hz
  rcases hk with hk | ⟨s, a1, a2, a3⟩
  · rcases hk with hk | ⟨hk, _⟩
    · rw [hm] at hk; exact absurd hk (by decide)
    · rw [hm] at hk; exact absurd hk (by decide)
  · obtain ⟨g2', s', b1, b2, b3, b4, b5⟩ := a3.reopen hz a2.typ f.inv hm hc hf hl g0 h0.mode h0.text h0.auto 0
    have he : openRead z g0 (.content g'.file) = .ok (g2', (true, 0)) := b1
    rw [ho] at he
    cases he
    have e1 : SymDesc.Of ⟨name, dim, typ.toNat, ui⟩ { s with bitmap := none } := ⟨a1.name, a1.dim, a1.typ, a1.ui⟩
    have e2 : SymLog { s with bitmap := none } (acc.map fun x => (x.key, x.vals)) := ⟨a2.typ, a2.txt, fun b hb => by cases hb⟩
    refine ⟨⟨b2.mode, hsv, ⟨s', e1.same b4, e2.same b4, b5⟩, ?_⟩, b2.sv.2, _, b2⟩
    obtain ⟨u, u1, u2, _⟩ := b2.uel
    refine ⟨_, u2, ?_⟩
    intro x hx
    obtain ⟨y, hy, rfl⟩ := List.mem_map.mp hx
    have := (f.inv.els u u1).good y hy
    unfold goodUEL at this
    simp only [Bool.and_eq_true, decide_eq_true_eq] at this
    exact this.1.1

/-- C01, C24, C37, C49, C50: A symbol is written in any mode in any history (`Written`), the file is closed, and opened by any object. Then the
    raw reader delivers exactly the stored records `acc`, in their order, with the same indices and with the values
    of C04 for any special values `r` of the reader, and with the right first changed positions (`AsWritten`); a scalar of which no
    record was written is delivered as its default record. Then it says that there are no more. The number of records reported at the
    start is the number of records delivered. The string reader delivers the same. -/
theorem C01_session {e : Env} {z : Cz} (hz : z.Good) {name : Str} {dim typ ui : Int} {m : Nat} {acc : List RawEntry} {g g2 : Gx}
    (h : Written e z name dim typ ui m acc g) (hr : Reopens z g g2) (r : SVTab) :
    ∃ outs, Delivered r (acrOf g2) ⟨name, dim, typ.toNat, ui⟩ acc outs ∧
      (∃ g3 g4, dataReadRawStart z (setReadSpecialValues g2 r) (m + 1) = .ok (g3, (true, outs.length)) ∧ DeliversRaw g3 outs g4 ∧
        g4.mode = .rInit) ∧
      (∃ g3 g4 ss, dataReadStrStart z (setReadSpecialValues g2 r) (m + 1) = .ok (g3, (true, outs.length)) ∧ DeliversStr g3 ss g4 ∧
        g4.mode = .rInit ∧ List.Forall₂ (Translates g2) outs ss) := by
  have h1 := ((h.loaded hz hr).1).readSV r
  obtain ⟨s, _, _, hd⟩ := h1.data
  obtain ⟨outs, h2, ⟨g3, g4, h3, h4, h5, _⟩, u, g5, g6, h6, h7, h8, h9, h10⟩ := h1.reads hz hd.self
  refine ⟨outs, h2, ⟨g3, g4, h3, h4, h5⟩, g5, g6, _, h7, h8, h9, ?_⟩
  rw [List.forall₂_map_right_iff]
  have hu : g2.uel = some u := h6
  obtain ⟨u', hu', hu2⟩ := h1.els
  have hu' : g2.uel = some u' := hu'
  rw [hu] at hu'
  cases hu'
  refine List.forall₂_same.mpr fun o _ => ⟨?_, rfl, rfl⟩
  exact elemStrs_get (g := g2) (by rw [hu]; exact elemStrs_out hu2 o.key)

/-- C05: after any history of calls (reading any files) the table of special values is unambiguous -/
theorem C05_always {e : Env} {z : Cz} {cs : List Call} {g : Gx} (hc : ∀ c ∈ cs, c.WF) (h : run e z Gx.new cs = .ok g) : Spec.Distinct g.sv := by
  have h1 : setSpecialValues g.sv = some g.sv := (SvOk.run e z cs Gx.new hc aft_new SvOk.new).of_ok h
  by_contra hd
  rw [(C05_set g.sv).2 hd] at h1
  cases h1

/-! ### writing is never undefined: C51, C53, C44 (raw mode) -/

/-- an object after a history of calls in which only files of the library were opened -/
def After (e : Env) (z : Cz) (g : Gx) : Prop :=
  ∃ cs : List Call, (∀ c ∈ cs, c.WF) ∧ OpensOwn z cs ∧ run e z Gx.new cs = .ok g

theorem After.fine {e : Env} {z : Cz} (hz : z.Good) {g : Gx} (h : After e z g) : Fine g := by
  obtain ⟨cs, h1, h2, h3⟩ := h
  exact Fine.run hz h1 h2 Fine.new h3

/-- calls that do not open or close files -/
def StaysIn (e : Env) (z : Cz) (a b : Gx) : Prop := ∃ cs : List Call, (∀ c ∈ cs, c.WF ∧ c.inFile = true) ∧ run e z a cs = .ok b

theorem StaysIn.one {e : Env} {z : Cz} {a b : Gx} {c : Call} (hc : c.WF) (hf : c.inFile = true) (h : step e z a c = .ok b) : StaysIn e z a b :=
  ⟨[c], by simp [hc, hf], run_one h⟩

theorem StaysIn.trans {e : Env} {z : Cz} {a b c : Gx} (h : StaysIn e z a b) (h' : StaysIn e z b c) : StaysIn e z a c := by
  obtain ⟨cs, h1, h2⟩ := h
  obtain ⟨ds, h3, h4⟩ := h'
  refine ⟨cs ++ ds, ?_, by rw [run_append, h2]; exact h4⟩
  intro x hx
  rcases List.mem_append.mp hx with hx | hx
  · exact h1 x hx
  · exact h3 x hx

theorem StaysIn.rawLog {e : Env} {z : Cz} {a b : Gx} {l : List RawEntry} (h : RawLog e z a l b) : StaysIn e z a b := by
  induction h with
  | nil g => exact ⟨[], by simp, rfl⟩
  | write hw _ ih =>
    obtain ⟨key', h1, h2⟩ := writeRaw_call (e := e) (z := z) hw
    exact (StaysIn.one (c := .writeRaw key' _) h1 rfl h2).trans ih
  | other hc hw hs _ ih => exact (StaysIn.one hw hc.inFile hs).trans ih

theorem StaysIn.sortLog {e : Env} {z : Cz} {a b : Gx} {l : List Given} (h : SortLog e z a l b) : StaysIn e z a b := by
  refine h.ind (P := fun g => StaysIn e z a g) ?_ ⟨[], by simp, rfl⟩
  intro g g' c hc hf hs hx
  exact hx.trans (.one hc hf hs)

theorem After.more {e : Env} {z : Cz} {a b : Gx} (h : After e z a) (hs : StaysIn e z a b) : After e z b := by
  obtain ⟨cs, h1, h2, h3⟩ := h
  obtain ⟨ds, h4, h5⟩ := hs
  refine ⟨cs ++ ds, ?_, ?_, by rw [run_append, h3]; exact h5⟩
  · intro c hc
    rcases List.mem_append.mp hc with hc | hc
    · exact h1 c hc
    · exact (h4 c hc).1
  · intro c hc
    rcases List.mem_append.mp hc with hc | hc
    · exact h2 c hc
    · have := (h4 c hc).2
      refine ⟨?_, ?_⟩
      · rintro d m rfl
        cases this
      · rintro d m rfl
        cases this

/-- after writing a symbol the theorems about histories can be used again -/
theorem Written.after {e : Env} {z : Cz} {name : Str} {dim typ ui : Int} {m : Nat} {acc : List RawEntry} {g : Gx}
    (h : Written e z name dim typ ui m acc g) : After e z g := by
  cases h with
  | raw log h ha =>
    obtain ⟨cs, cs', syms', a0, a1, a2, a3, text', b, b1, b2, b3, b4, b5, b6, b7, b8, b9, b10, b11, b12, b13⟩ := h
    refine After.more (a := a0) ⟨cs, b1, b2, b3⟩ (.trans (b := a1) ?_ (.trans (b := a2) (.rawLog b8) (.trans (b := a3) ?_ ⟨cs', b12, b13⟩)))
    · rcases b7 with h1 | ⟨bs, hb, h1⟩
      · exact .one (c := .rawStart name text' dim typ ui) b6 rfl (by show stateOf _ = _; rw [h1]; rfl)
      · exact .one (c := .rawStartBounds name text' dim typ ui bs) ⟨b6.1, b6.2.1, b6.2.2.1, b6.2.2.2.1, b6.2.2.2.2, hb⟩ rfl
          (by show stateOf _ = _; rw [h1]; rfl)
    · exact .one (c := .writeDone) trivial rfl (by show stateOf _ = _; rw [b11]; rfl)
  | sorted h =>
    obtain ⟨cs, cs', syms', a0, a1, a2, a3, text', b, its, ss, doms, b1, b2, b3, b4, b5, b6, b7, b8, b9, b10, b11, b12, b13, b14, b15, b16, b17⟩ := h
    refine After.more (a := a0) ⟨cs, b1, b2, b3⟩ (.trans (b := a1) ?_ (.trans (b := a2) (.sortLog b8) (.trans (b := a3) ?_ ⟨cs', b15, b16⟩)))
    · rcases b7 with h1 | h1
      · exact .one (c := .mapStart name text' dim typ ui) b6 rfl (by show stateOf _ = _; rw [h1]; rfl)
      · exact .one (c := .strStart name text' dim typ ui) b6 rfl (by show stateOf _ = _; rw [h1]; rfl)
    · exact .one (c := .writeDone) trivial rfl (by show stateOf _ = _; rw [b14]; rfl)

/-- gdxDataWriteRawStart, or gdxDataWriteRawStartKeyBounds with the given bounds -/
def startRaw (g : Gx) (name text : Str) (dim typ ui : Int) : Option (List (Int × Int)) → Res (Gx × Bool)
  | none => dataWriteRawStart g name text dim typ ui
  | some bs => dataWriteRawStartKeyBounds g name text dim typ ui bs

/-- bounds that may be given for a symbol of dimension `dim` -/
def BoundsOk (dim : Nat) : Option (List (Int × Int)) → Prop
  | none => True
  | some bs => bs.length = dim ∧ ∀ b ∈ bs, 0 ≤ b.1 ∧ I32 b.1 ∧ I32 b.2

/-- a record that may be written: right number of indices and values, indices up to 2^31 - 257, within the bounds -/
structure RecOk (dim nv : Nat) (o : Option (List (Int × Int))) (x : Given) : Prop where
  len : x.1.length = dim
  nval : x.2.length = nv
  key : ∀ k ∈ x.1, 0 ≤ k ∧ k ≤ 2147483391
  within : ∀ bs, o = some bs → Within bs x.1

/-- the error list is shown as these records -/
structure ErrorList (g : Gx) (l : List Given) : Prop where
  count : dataErrorCount g = l.length
  record : ∀ (n : Nat) x, l[n]? = some x →
    dataErrorRecordX g (n + 1) = (g, some x) ∧ dataErrorRecord g (n + 1) = (g, some (x.1.map fun k => if k < 0 then -k else k, x.2))
  others : ∀ n : Int, n < 1 ∨ n > l.length → (dataErrorRecordX g n).2 = none ∧ (dataErrorRecord g n).2 = none

theorem errorList_of {g : Gx} (hm : g.mode = .wInit) : ErrorList g (g.errList.getD []) := by
  have hc : g.chk [.rInit, .wInit, .rMap, .rMapR, .wRaw, .wMap, .wStr] = (g, true) := by
    rcases chk_cases g [.rInit, .wInit, .rMap, .rMapR, .wRaw, .wMap, .wStr] with ⟨_, hc⟩ | ⟨hc, _⟩
    · exact hc
    · rw [hm] at hc
      exact absurd hc (by decide)
  cases hl : g.errList with
  | none =>
    have h2 : ∀ n : Int, (dataErrorRecordX g n).2 = none := by
      intro n
      unfold dataErrorRecordX
      simp only [hc, Bool.true_eq_false, if_false, hl]
    refine ⟨?_, by intro n x h; simp at h, fun n _ => ⟨h2 n, ?_⟩⟩
    · unfold dataErrorCount
      rw [hl]
      rfl
    · unfold dataErrorRecord
      dsimp only
      rw [h2 n]
      rfl
  | some l =>
    have hx : ∀ (n : Nat) x, l[n]? = some x → dataErrorRecordX g (n + 1) = (g, some x) := by
      intro n x hn
      unfold dataErrorRecordX
      simp only [hc, Bool.true_eq_false, if_false, hl]
      have hlt := (List.getElem?_eq_some_iff.mp hn).1
      rw [if_pos (by omega)]
      rw [show ((n : Int) + 1 - 1).toNat = n by omega, hn]
    have h2 : ∀ n : Int, n < 1 ∨ n > l.length → (dataErrorRecordX g n).2 = none := by
      intro n hn
      unfold dataErrorRecordX
      simp only [hc, Bool.true_eq_false, if_false, hl]
      rw [if_neg (by omega)]
    refine ⟨?_, fun n x hn => ⟨hx n x hn, ?_⟩, fun n hn => ⟨h2 n hn, ?_⟩⟩
    · unfold dataErrorCount
      rw [hl]
      rfl
    · unfold dataErrorRecord
      rw [hx n x hn]
      rfl
    · unfold dataErrorRecord
      dsimp only
      rw [h2 n hn]
      rfl

theorem refusals_mem {doms : List Dom} {dim : Nat} {x : Verdict × Given} : ∀ (l : List Given) (o : Option (List Int)),
    x ∈ refusals doms dim o l → x.2 ∈ l ∧ x.1 ≠ .stored
  | [], _, h => by simp [refusals] at h
  | (k, v) :: l, o, h => by
    unfold refusals at h
    split at h
    · exact (refusals_mem l _ h).imp_left (List.mem_cons_of_mem _)
    · rename_i hv
      rcases List.mem_cons.mp h with rfl | h
      · exact ⟨List.mem_cons_self .., hv⟩
      · exact (refusals_mem l _ h).imp_left (List.mem_cons_of_mem _)

theorem refusals_free {dim : Nat} {x : Verdict × Given} : ∀ (l : List Given) (o : Option (List Int)),
    x ∈ refusals [] dim o l → x.1 ≠ .outside
  | [], _, h => by simp [refusals] at h
  | (k, v) :: l, o, h => by
    unfold refusals at h
    split at h
    · exact refusals_free l _ h
    · rcases List.mem_cons.mp h with rfl | h
      · show verdict [] dim o k ≠ .outside
        unfold verdict
        rw [outsides_nil, if_neg (by simp)]
        split
        · decide
        · split
          · decide
          · split
            · decide
            · split <;> decide
      · exact refusals_free l _ h

theorem seqLog_nonneg {sv : SVTab} {doms : List Dom} {dim : Nat} : ∀ (xs : List Given) (last : Option (List Int)), (∀ x ∈ xs, ∀ k ∈ x.1, 0 ≤ k) →
    ∀ x ∈ seqLog sv doms dim last xs, ∀ k ∈ x.key, 0 ≤ k := by
  intro xs
  induction xs with
  | nil => intro _ _ x hx; simp [seqLog] at hx
  | cons y l ih =>
    intro last h x hx
    obtain ⟨k, v⟩ := y
    unfold seqLog at hx
    rcases List.mem_cons.mp hx with rfl | hx
    · exact h (k, v) (by simp)
    · exact ih _ (fun y hy => h y (by simp [hy])) x hx

theorem dataWriteDone_errs {z : Cz} {g g' : Gx} {b : Bool} (hr : RawMode g.mode) (h : dataWriteDone z g = .ok (g', b)) :
    g'.errList = g.errList ∧ g'.errTotal = g.errTotal ∧ g'.raised = g.raised := by
  unfold dataWriteDone at h
  rcases chk_cases g [.wRaw, .wMap, .wStr, .wDomRaw, .wDomMap, .wDomStr] with ⟨hmm, hc⟩ | ⟨hmm, hc⟩
  · simp only [hc, Bool.true_eq_false, if_false] at h
    rw [if_pos (show g.mode = .wRaw ∨ g.mode = .wDomRaw from hr)] at h
    obtain ⟨g4, h4, h⟩ := Res.bind_eq_ok.mp h
    cases h
    unfold finishBlock at h4
    obtain ⟨s, _, h4⟩ := Res.bind_eq_ok.mp h4
    split at h4
    · cases h4
    obtain ⟨g5, h5, h4⟩ := Res.bind_eq_ok.mp h4
    cases h4
    unfold Gx.modCur at h5
    split at h5
    · split at h5
      · cases h5
        exact ⟨rfl, rfl, rfl⟩
      · cases h5
    · cases h5
  · rcases hr with hr | hr <;> simp [hr] at hmm

/-- writing records in raw mode with the domains `doms` and finishing the symbol -/
theorem writeAndFinish {e : Env} {z : Cz} {g1 : Gx} {m : Nat} {d : SymDesc} {doms : List Dom} (f1 : Fine g1) (hse : Sess g1 m d [] [])
    (hr : RawMode g1.mode) (xs : List Given) (hf : ∀ x ∈ xs, GivenFits g1 x) (hw : DomsFix g1 m doms) (ha : g1.acros.isSome = true)
    (hl : (xs.length : Int) ≤ intMax) (he : g1.errList = none) :
    ∃ g2 g3, writesRaw g1 xs = .ok (g2, (verdicts doms g1.nd none xs).map fun v => decide (v = .stored)) ∧ RawMode g2.mode ∧
      RawLog e z g1 (seqLog g1.sv doms g1.nd none xs) g2 ∧ (∀ x ∈ seqLog g1.sv doms g1.nd none xs, ∀ k ∈ x.key, 0 ≤ k) ∧
      dataWriteDone z g2 = .ok (g3, true) ∧ g3.mode = .wInit ∧ g3.errTotal = g1.errTotal + (refusals doms g1.nd none xs).length ∧
      g3.raised = g1.raised ++ (refusals doms g1.nd none xs).map (fun r => r.1.code) ∧
      NoteAll doms [] (refusals doms g1.nd none xs) (g3.errList.getD []) := by
  obtain ⟨g2, w1, w2, w3, w4, w5⟩ := hse.writes e z xs hr hf hw ha (by simp) (by simpa using hl) (by rw [he]; simp)
  have hlk : lastKey none ([] : List Rec) = none := rfl
  rw [hlk] at w1 w3 w5
  have hkeys := seqLog_nonneg (sv := g1.sv) (doms := doms) (dim := g1.nd) xs none fun x hx' k hk => ((hf x hx').okk k hk).1
  have f2 := (f1.rawLog w3).1
  have hst2 : g2.stat = .write := f2.ph.stat (Or.inr w2.writing)
  have hs2 := hse.rawLog w3 hr hkeys w2
  obtain ⟨g3, h3⟩ := Sess.doneTotal (z := z) hs2 w2 f2.inv hst2
  obtain ⟨_, hm3, _⟩ := hs2.done w2 f2.inv hst2 h3
  obtain ⟨x1, x2, x3⟩ := dataWriteDone_errs w2 h3
  refine ⟨g2, g3, w1, w2, w3, hkeys, h3, hm3, by rw [x2, w5.total], by rw [x3, w5.raised], ?_⟩
  have := w5.list
  rw [he] at this
  rw [x1]
  exact this

/-- the start of a symbol in raw mode -/
theorem startRaw_ok {e : Env} {z : Cz} (hz : z.Good) {g0 : Gx} (hh : After e z g0) (hm : g0.mode = .wInit) {syms : List Sym}
    {acros : List Acr} (hs : g0.names = some syms) (ha : g0.acros = some acros) {name text : Str} {dim typ ui : Int}
    (hn : NewName syms acros name) (hz1 : ZFree name) (hz2 : ZFree text) (hd : 0 ≤ dim ∧ dim ≤ 20) (ht : 0 ≤ typ ∧ typ ≤ 3) (hu : I32 ui)
    (o : Option (List (Int × Int))) (hb : BoundsOk dim.toNat o) (xs : List Given)
    (hx : ∀ x ∈ xs, RecOk dim.toNat (dataTypSize typ.toNat) o x) :
    ∃ g1 bs, startRaw g0 name text dim typ ui o = .ok (g1, true) ∧ Started g0 g1 dim typ bs ∧ bs.length = dim.toNat ∧
      (∀ x ∈ xs, KeyFits bs x.1) ∧ Sess g1 syms.length ⟨name, dim, typ.toNat, ui⟩ [] [] ∧ Fine g1 ∧
      (dataWriteRawStart g0 name text dim typ ui = .ok (g1, true) ∨
        ∃ bs, (∀ b ∈ bs, I32 b.1 ∧ I32 b.2) ∧ dataWriteRawStartKeyBounds g0 name text dim typ ui bs = .ok (g1, true)) := by
  have f0 := hh.fine hz
  have hst := f0.stat hm
  have hnw : 0 ≤ g0.nextWrite := by have := (f0.inv.head hst).next; omega
  obtain ⟨d1, _, _, d2⟩ := C14_defined g0 syms acros hm hs ha hnw name text dim typ ui
  have i1 : I32 dim := by unfold I32; omega
  have i2 : I32 typ := by unfold I32; omega
  cases o with
  | none =>
    cases h1 : dataWriteRawStart g0 name text dim typ ui with
    | ub => exact absurd h1 d1
    | ok x =>
      obtain ⟨g1, b⟩ := x
      have hb1 := (C14_accept dataWriteRawStart (Or.inl rfl) g0 g1 syms acros hm hs ha name text dim typ ui b h1).1.mpr ⟨hn, hd, ht⟩
      subst hb1
      obtain ⟨a1, a2, syms', a3, a4⟩ := Sess.rawStart h1
      rw [hs] at a3
      cases a3
      exact ⟨g1, _, h1, rawStart_started h1, by simp,
        fun x hx' => keyFits_of_within (within_raw (hx x hx').len (hx x hx').key) (by simp) (hx x hx').key, a4,
        f0.step (e := e) (z := z) (c := .rawStart name text dim typ ui) ⟨hz1, hz2, i1, i2, hu⟩ rfl
          (by show stateOf _ = _; rw [h1]; rfl), Or.inl rfl⟩
  | some bs =>
    have hbi : ∀ b ∈ bs, I32 b.1 ∧ I32 b.2 := fun b hb' => (hb.2 b hb').2
    cases h1 : dataWriteRawStartKeyBounds g0 name text dim typ ui bs with
    | ub => exact absurd h1 (d2 bs hb.1 hbi)
    | ok x =>
      obtain ⟨g1, b⟩ := x
      have hb1 := (C14_accept _ (Or.inr (Or.inr (Or.inr ⟨bs, rfl⟩))) g0 g1 syms acros hm hs ha name text dim typ ui b h1).1.mpr
        ⟨hn, hd, ht⟩
      subst hb1
      obtain ⟨a1, a2, syms', a3, a4⟩ := Sess.rawStartBounds h1
      rw [hs] at a3
      cases a3
      exact ⟨g1, bs, h1, (rawStartBounds_started h1).1, hb.1,
        fun x hx' => keyFits_of_within ((hx x hx').within bs rfl) (fun b hb' => (hb.2 b hb').1) (hx x hx').key, a4,
        f0.step (e := e) (z := z) (c := .rawStartBounds name text dim typ ui bs) ⟨hz1, hz2, i1, i2, hu, hbi⟩ rfl
          (by show stateOf _ = _; rw [h1]; rfl), Or.inr ⟨bs, hbi, h1⟩⟩

/-- C51, C53, C44 (raw mode): In any history of calls that left the object ready for a new symbol: starting a symbol with a new name,
    dimension 0..20 and type 0..3, with or without key bounds, writing any sequence of records (indices up to 2^31 - 257 and within
    the bounds), and finishing it is never undefined. Each write call tells whether the record is stored: it is stored exactly when it is
    greater than the last stored one (`verdicts`). For each refused record exactly one error is raised, a duplicate error or an order error
    (`Verdict.code`), the error count grows by their number, and the error list has the first eleven of them in their order. What is in the file afterwards: `C01_session`, since this is `Wrote`. -/
theorem C51_session {e : Env} {z : Cz} (hz : z.Good) {g0 : Gx} (hh : After e z g0) (hm : g0.mode = .wInit) {syms : List Sym}
    {acros : List Acr} (hs : g0.names = some syms) (ha : g0.acros = some acros) {name text : Str} {dim typ ui : Int}
    (hn : NewName syms acros name) (hz1 : ZFree name) (hz2 : ZFree text) (hd : 0 ≤ dim ∧ dim ≤ 20) (ht : 0 ≤ typ ∧ typ ≤ 3) (hu : I32 ui)
    (o : Option (List (Int × Int))) (hb : BoundsOk dim.toNat o) (xs : List Given)
    (hx : ∀ x ∈ xs, RecOk dim.toNat (dataTypSize typ.toNat) o x) (hl : (xs.length : Int) ≤ intMax) :
    ∃ g1 g2 g3, startRaw g0 name text dim typ ui o = .ok (g1, true) ∧
      writesRaw g1 xs = .ok (g2, (verdicts [] dim.toNat none xs).map fun v => decide (v = .stored)) ∧
      dataWriteDone z g2 = .ok (g3, true) ∧ g3.mode = .wInit ∧
      Wrote e z name dim typ ui syms.length (seqLog g0.sv [] dim.toNat none xs) g3 ∧
      errorCount g3 = errorCount g0 + (refusals [] dim.toNat none xs).length ∧
      g3.raised = g0.raised ++ (refusals [] dim.toNat none xs).map (fun r => r.1.code) ∧ ErrorList g3 ((refusedOf [] dim.toNat none xs).take 11) := by
  have i1 : I32 dim := by unfold I32; omega
  have i2 : I32 typ := by unfold I32; omega
  obtain ⟨g1, bs, h1, hS, hbl, hkf, hse, f1, hor⟩ := startRaw_ok hz hh hm hs ha hn hz1 hz2 hd ht hu o hb xs hx (text := text)
  have hnd : g1.nd = dim.toNat := by unfold Gx.nd; rw [hS.dim]
  obtain ⟨g2, g3, w1, w2, w3, w4, w5, w6, w7, w8, w9⟩ := writeAndFinish (e := e) (z := z) (doms := []) f1 hse hS.mode xs
    (fun x hx' => ⟨(hx x hx').len.trans hnd.symm, by rw [hS.bounds]; exact hkf x hx', (hx x hx').nval.trans hS.size.symm, (hx x hx').key⟩)
    (DomsFix.none hS.wrBits) (by rw [hS.acros, ha]; rfl) hl hS.errs
  rw [hnd, hS.sv] at w3 w4
  rw [hnd] at w1 w7 w8 w9
  refine ⟨g1, g2, g3, h1, w1, w5, w6, ?_, ?_, ?_, ?_⟩
  · obtain ⟨cs, c1, c2, c3⟩ := hh
    exact ⟨cs, [], syms, g0, g1, g2, g3, text, true, c1, c2, c3, hs, rfl, ⟨hz1, hz2, i1, i2, hu⟩, hor, w3, w2, w4, w5, by simp, rfl⟩
  · show g3.errTotal = g0.errTotal + _
    rw [w7, hS.total]
  · rw [w8, hS.raised]
  · have := errorList_of w6
    rwa [noted_plain w9 (fun x hx => refusals_free xs none hx) (by simp), List.nil_append] at this

/-- a file that was closed in the way described can be opened by every object that has no file open -/
theorem reopens_exists {e : Env} {z : Cz} (hz : z.Good) {name : Str} {dim typ ui : Int} {m : Nat} {acc : List RawEntry} {g g' g0 : Gx}
    {k : Int} (h : Written e z name dim typ ui m acc g) (hm : g.mode = .wInit) (hc : gdxClose z g = .ok (g', k)) (hf : FileFits g)
    (hl : (g'.file.length : Int) ≤ 9223372036854775807) (h0 : Reader g0) :
    ∃ g2, openRead z g0 (.content g'.file) = .ok (g2, (true, 0)) ∧ Reopens z g g2 := by
  obtain ⟨f, _, _⟩ := h.kept hz
  obtain ⟨g2, h1, _, _⟩ := close_open hz f.inv hm (f.stat hm) hc hf hl g0 h0.mode 0
  exact ⟨g2, h1, g0, g', k, hm, hc, hf, hl, h0, h1⟩

/-! ### sorted records: C01 -/

theorem storedOf_sorted {dim : Nat} : ∀ (xs : List Given) (o : Option (List Int)), (∀ k x, o = some k → x ∈ xs → k < x.1) →
    (xs.map Prod.fst).Pairwise (· < ·) → storedOf [] dim o xs = xs ∧ refusals [] dim o xs = []
  | [], _, _, _ => ⟨rfl, rfl⟩
  | (k, v) :: l, o, ho, hs => by
    have hv : verdict [] dim o k = .stored := by
      unfold verdict
      rw [outsides_nil, if_neg (by simp)]
      split
      · rfl
      · cases o with
        | none => rfl
        | some p => dsimp only; rw [if_pos (ho p (k, v) rfl (by simp))]
    rw [List.map_cons, List.pairwise_cons] at hs
    obtain ⟨i1, i2⟩ := storedOf_sorted (dim := dim) l (some k) (by
      rintro k' x ⟨⟩ hx
      exact hs.1 x.1 (List.mem_map.mpr ⟨x, hx, rfl⟩)) hs.2
    unfold storedOf refusals
    rw [if_pos hv, if_pos hv, i1, i2]
    exact ⟨rfl, rfl⟩

theorem seqLog_accepted (sv : SVTab) (doms : List Dom) (dim : Nat) : ∀ (xs : List Given) (o : Option (List Int)),
    acceptedOf (seqLog sv doms dim o xs) = (storedOf doms dim o xs).map (entryOf sv)
  | [], _ => rfl
  | (k, v) :: l, o => by
    unfold seqLog storedOf
    by_cases h : verdict doms dim o k = .stored
    · rw [if_pos h, if_pos h, List.map_cons, ← seqLog_accepted sv doms dim l (some k)]
      simp [acceptedOf, h, entryOf]
    · rw [if_neg h, if_neg h, ← seqLog_accepted sv doms dim l o]
      simp [acceptedOf, h]

/-- C01: In any history of calls that left the object ready for a new symbol: a symbol with a new name, dimension 0..20 and type 0..3 is
    written with strictly increasing keys (entries up to 2^31 - 257) and any values. All calls succeed, no record is refused and no
    error is raised. When the file is closed (`Reopens`: right after this or after any further calls `cs2` that leave the file open,
    among them writing more symbols) and opened by any object, for all special values `r` set for reading, the raw reader delivers
    exactly these records in this order, each value as C04 says (`Delivered`, `SameRec`, `ReadsAs`; a scalar without record is
    delivered as its default record), and then says that there are no more. -/
theorem C01_roundtrip {e : Env} {z : Cz} (hz : z.Good) {g0 : Gx} (hh : After e z g0) (hm : g0.mode = .wInit) {syms : List Sym}
    {acros : List Acr} (hs : g0.names = some syms) (ha : g0.acros = some acros) {name text : Str} {dim typ ui : Int}
    (hn : NewName syms acros name) (hz1 : ZFree name) (hz2 : ZFree text) (hd : 0 ≤ dim ∧ dim ≤ 20) (ht : 0 ≤ typ ∧ typ ≤ 3) (hu : I32 ui)
    (xs : List Given) (hx : ∀ x ∈ xs, RecOk dim.toNat (dataTypSize typ.toNat) none x) (hl : (xs.length : Int) ≤ intMax)
    (hsort : (xs.map Prod.fst).Pairwise (· < ·)) :
    ∃ g1 g2 g3, dataWriteRawStart g0 name text dim typ ui = .ok (g1, true) ∧ writesRaw g1 xs = .ok (g2, xs.map fun _ => true) ∧
      dataWriteDone z g2 = .ok (g3, true) ∧ g3.mode = .wInit ∧ errorCount g3 = errorCount g0 ∧
      ∀ cs2, (∀ c ∈ cs2, c.WF ∧ c.inFile = true) → ∀ g, run e z g3 cs2 = .ok g → ∀ gr, Reopens z g gr → ∀ r : SVTab,
        ∃ outs g4 g5, Delivered r (acrOf gr) ⟨name, dim, typ.toNat, ui⟩ (xs.map (entryOf g0.sv)) outs ∧
          dataReadRawStart z (setReadSpecialValues gr r) (syms.length + 1) = .ok (g4, (true, outs.length)) ∧ DeliversRaw g4 outs g5 ∧
          g5.mode = .rInit := by
  obtain ⟨hst, hrf⟩ := storedOf_sorted (dim := dim.toNat) xs none (by intro _ _ h; cases h) hsort
  obtain ⟨g1, g2, g3, h1, h2, h3, h4, h5, h6, _, h7⟩ := C51_session hz hh hm hs ha hn hz1 hz2 hd ht hu none trivial xs hx hl
  have hv : (verdicts [] dim.toNat none xs).map (fun v => decide (v = Verdict.stored)) = xs.map fun _ => true := by
    have : ∀ (xs : List Given) (o : Option (List Int)), refusals [] dim.toNat o xs = [] →
        (verdicts [] dim.toNat o xs).map (fun v => decide (v = Verdict.stored)) = xs.map fun _ => true := by
      intro xs
      induction xs with
      | nil => intro _ _; rfl
      | cons x l ih =>
        obtain ⟨k, v⟩ := x
        intro o h
        unfold refusals at h
        unfold verdicts
        by_cases hv : verdict [] dim.toNat o k = .stored
        · rw [if_pos hv] at h
          rw [if_pos hv, List.map_cons, List.map_cons, ih _ h, decide_eq_true hv]
        · rw [if_neg hv] at h
          cases h
    exact this xs none hrf
  rw [hv] at h2
  refine ⟨g1, g2, g3, h1, h2, h3, h4, ?_, ?_⟩
  · rw [h6, hrf]
    simp
  · intro cs2 hc2 g hr gr hre r
    have hw : Written e z name dim typ ui syms.length ((storedOf [] dim.toNat none xs).map (entryOf g0.sv)) g :=
      Written.more (.raw _ h5 (seqLog_accepted ..).symm) hc2 hr
    obtain ⟨outs, k1, ⟨g4, g5, k2, k3, k4⟩, _⟩ := C01_session hz hw hre r
    rw [hst] at k1
    exact ⟨outs, g4, g5, k1, k2, k3, k4⟩

/-! ### acronyms -/

/-- the value delivered for a stored acronym value or infinity by a new reader -/
def plainAcr (na : Bool) (d : Dbl) : Dbl :=
  if d = Dbl.posInf then SVTab.default.pin
  else if na then SVTab.default.na
  else match acrDiv d with
    | .ok n => acrValue n
    | .ub => d

theorem acrOf_reopened {rm : Int} {g g2 : Gx} {f : List UInt8} (h : Reopened rm g f g2) : acrOf g2 = plainAcr g2.acrNaN := by
  funext d
  unfold acrOf plainRemap plainAcr
  rw [h.sv.1]
  split
  · rfl
  split
  · rfl
  obtain ⟨l, _, hl⟩ := h.acros
  cases hd : acrDiv d with
  | ub => rfl
  | ok n =>
    dsimp only
    congr 1
    unfold plainIndex
    rw [hl]
    rw [Option.getD_some]
    split
    · rfl
    · split
      · rename_i a ha
        rw [List.getElem?_map] at ha
        obtain ⟨b, _, rfl⟩ := Option.map_eq_some_iff.mp ha
        rw [if_neg (show ¬ b.reopened.readMap > 0 from (by decide : ¬ (-1 : Int) > 0))]
      · rfl

/-- C01 (with C31): the value of acronym `n` (up to 17976931) is delivered unchanged, unless the reader turned acronyms off -/
theorem C01_acronym {rm : Int} {g g2 : Gx} {f : List UInt8} (h : Reopened rm g f g2) (hn : g2.acrNaN = false) (n : Int)
    (h1 : 1 ≤ n) (h2 : n ≤ 17976931) : acrOf g2 (acrValue n) = acrValue n := by
  rw [acrOf_reopened h, hn]
  obtain ⟨h3, h4, h5⟩ := C31_inverse_partial n h1 h2
  have h6 : acrValue n ≠ Dbl.posInf := by
    intro e
    rw [e] at h5
    revert h5
    decide
  have h7 : acrDiv (acrValue n) = .ok n := by
    unfold acrIndex ltAcr at h3
    rw [h4, h5] at h3
    simpa using h3
  unfold plainAcr
  rw [if_neg h6, h7]
  simp only [Bool.false_eq_true, if_false]

/-! ### C53 -/

/-- C53: the same records written after gdxDataWriteRawStart and after gdxDataWriteRawStartKeyBounds, in possibly different histories
    (`h`, `h'`: see C51_session, which gives the same `log` for both), are read back alike. -/
theorem C53_session {e e' : Env} {z z' : Cz} (hz : z.Good) (hz' : z'.Good) {name : Str} {dim typ ui : Int} {m m' : Nat} {acc : List RawEntry}
    {g g' g2 g2' : Gx} (h : Written e z name dim typ ui m acc g) (h' : Written e' z' name dim typ ui m' acc g') (hr : Reopens z g g2)
    (hr' : Reopens z' g' g2') (ha : g2.acrNaN = g2'.acrNaN) (r : SVTab) :
    ∃ outs g3 g4 g3' g4', dataReadRawStart z (setReadSpecialValues g2 r) (m + 1) = .ok (g3, (true, outs.length)) ∧ DeliversRaw g3 outs g4 ∧
      dataReadRawStart z' (setReadSpecialValues g2' r) (m' + 1) = .ok (g3', (true, outs.length)) ∧ DeliversRaw g3' outs g4' := by
  obtain ⟨outs, a1, ⟨g3, g4, a2, a3, _⟩, _⟩ := C01_session hz h hr r
  obtain ⟨outs', b1, ⟨g3', g4', b2, b3, _⟩, _⟩ := C01_session hz' h' hr' r
  obtain ⟨l1, _, f1, r1⟩ := h.loaded hz hr
  obtain ⟨_, _, f2, r2⟩ := h'.loaded hz' hr'
  rw [acrOf_reopened r1, ha, ← acrOf_reopened r2] at a1
  have := Delivered.unique l1.sv a1 b1
  subst this
  exact ⟨outs, g3, g4, g3', g4', a2, a3, b2, b3⟩

/-! ### C24, C37, C49, C54 -/

/-- C24 for the raw reader and the string reader (the mapped reader is missing): for a symbol written in any mode, the first changed
    positions are exact. -/
theorem C24_raw_partial {e : Env} {z : Cz} (hz : z.Good) {name : Str} {dim typ ui : Int} {m : Nat} {acc : List RawEntry} {g g2 : Gx}
    (h : Written e z name dim typ ui m acc g) (hr : Reopens z g g2) (r : SVTab) :
    ∃ outs, FirstsOk dim.toNat (keysOf outs) ∧
      (∃ g3 g4, dataReadRawStart z (setReadSpecialValues g2 r) (m + 1) = .ok (g3, (true, outs.length)) ∧ DeliversRaw g3 outs g4) ∧
      (∃ g3 g4 ss, dataReadStrStart z (setReadSpecialValues g2 r) (m + 1) = .ok (g3, (true, outs.length)) ∧ DeliversStr g3 ss g4 ∧
        List.Forall₂ (Translates g2) outs ss) := by
  obtain ⟨outs, a1, ⟨g3, g4, a2, a3, _⟩, ⟨g5, g6, ss, a4, a5, _, a6⟩⟩ := C01_session hz h hr r
  refine ⟨outs, ?_, ⟨g3, g4, a2, a3⟩, g5, g6, ss, a4, a5, a6⟩
  unfold Delivered at a1
  split at a1
  · rename_i hc
    have hd : dim = 0 := hc.1
    subst hd
    rw [a1]
    intro i k f hi
    rw [if_pos (show (0 : Int).toNat = 0 from rfl)]
    cases i with
    | zero => cases hi; rfl
    | succ i => simp at hi
  · exact a1.frst

/-- C37 for scalars for which at most one record was accepted (a second one is accepted too and then both are delivered, see
    `C37_counterexample`): the readers deliver exactly one record, which is the one written or the default record of the type. -/
theorem C37_scalar_partial {e : Env} {z : Cz} (hz : z.Good) {name : Str} {typ ui : Int} {m : Nat} {acc : List RawEntry} {g g2 : Gx}
    (h : Written e z name 0 typ ui m acc g) (hr : Reopens z g g2) (hl : acc.length ≤ 1) (r : SVTab) :
    ∃ o, (acc = [] → o = ⟨[], defaults r typ.toNat ui, 0⟩) ∧
      (∀ x, acc = [x] → o.key = [] ∧ o.frst = 0 ∧ List.Forall₂ (ReadsAs x.sv r (acrOf g2)) x.vals o.vals) ∧
      (∃ g3 g4, dataReadRawStart z (setReadSpecialValues g2 r) (m + 1) = .ok (g3, (true, 1)) ∧ DeliversRaw g3 [o] g4) ∧
      (∃ g3 g4 s, dataReadStrStart z (setReadSpecialValues g2 r) (m + 1) = .ok (g3, (true, 1)) ∧ DeliversStr g3 [s] g4 ∧
        Translates g2 o s) := by
  obtain ⟨outs, a1, ⟨g3, g4, a2, a3, _⟩, ⟨g5, g6, ss, a4, a5, _, a6⟩⟩ := C01_session hz h hr r
  unfold Delivered at a1
  have hone : ∃ o, outs = [o] ∧ (acc = [] → o = ⟨[], defaults r typ.toNat ui, 0⟩) ∧
      ∀ x, acc = [x] → o.key = [] ∧ o.frst = 0 ∧ List.Forall₂ (ReadsAs x.sv r (acrOf g2)) x.vals o.vals := by
    cases hx : acc with
    | nil =>
      rw [if_pos ⟨rfl, hx⟩] at a1
      exact ⟨_, a1, fun _ => rfl, by intro x hx; cases hx⟩
    | cons x l =>
      have : l = [] := by
        rw [hx] at hl
        simpa using hl
      subst this
      rw [if_neg (by rw [hx]; simp), hx] at a1
      obtain ⟨b1, b2, _, b3⟩ := a1
      cases b1 with
      | cons c1 c2 =>
        cases c2
        rename_i o _
        refine ⟨o, rfl, (by intro h; cases h), ?_⟩
        rintro y ⟨⟩
        have := b2 0 o.key o.frst rfl
        exact ⟨List.length_eq_zero_iff.mp (b3 o (by simp)), this, c1.vals⟩
  obtain ⟨o, rfl, p1, p2⟩ := hone
  cases a6 with
  | cons c1 c2 =>
    cases c2
    exact ⟨o, p1, p2, ⟨g3, g4, a2, a3⟩, g5, g6, _, a4, a5, c1⟩

/-- C49 for symbols written in any mode, except scalars with several records (see `C49_counterexample`): gdxSymbolInfoX and the start
    functions report the number of records that are delivered. -/
theorem C49_count_partial {e : Env} {z : Cz} (hz : z.Good) {name : Str} {dim typ ui : Int} {m : Nat} {acc : List RawEntry} {g g2 : Gx}
    (h : Written e z name dim typ ui m acc g) (hr : Reopens z g g2) (hd : dim ≠ 0 ∨ acc.length ≤ 1) (r : SVTab) :
    ∃ outs g3 g4, dataReadRawStart z (setReadSpecialValues g2 r) (m + 1) = .ok (g3, (true, outs.length)) ∧ DeliversRaw g3 outs g4 ∧
      (symbolInfoX g2 (m + 1)).recs = outs.length := by
  obtain ⟨outs, a1, ⟨g3, g4, a2, a3, _⟩, _⟩ := C01_session hz h hr r
  exact ⟨outs, g3, g4, a2, a3, (h.loaded hz hr).1.count hd a1⟩

/-- C54: for a symbol written in any mode, in the reopened file: gdxSetHasText says whether it is a set of which some accepted record has
    a text number that is not zero. -/
theorem C54_text {e : Env} {z : Cz} (hz : z.Good) {name : Str} {dim typ ui : Int} {m : Nat} {acc : List RawEntry} {g g2 : Gx}
    (h : Written e z name dim typ ui m acc g) (hr : Reopens z g g2) :
    setHasText g2 (m + 1) = true ↔
      typ.toNat = 0 ∧ ∃ x ∈ acc, ∃ v vs, x.vals = v :: vs ∧ v ≠ Dbl.zero ∧ v ≠ Dbl.negZero :=
  (h.loaded hz hr).1.hasText

/-- C54 in the session in which the set is written -/
theorem C54_write {e : Env} {z : Cz} (hz : z.Good) {name : Str} {dim typ ui : Int} {m : Nat} {acc : List RawEntry} {g : Gx}
    (h : Written e z name dim typ ui m acc g) (hm : g.mode = .wInit) :
    setHasText g (m + 1) = true ↔
      typ.toNat = 0 ∧ ∃ x ∈ acc, ∃ v vs, x.vals = v :: vs ∧ v ≠ Dbl.zero ∧ v ≠ Dbl.negZero := by
  obtain ⟨_, _, hk⟩ := h.kept hz
  rcases hk with (hk | ⟨hk, _⟩) | ⟨s0, a1, a2, a3⟩
  · rw [hm] at hk; exact absurd hk (by decide)
  · rw [hm] at hk; exact absurd hk (by decide)
  obtain ⟨syms', s, b1, b2, b3, _⟩ := a3.sym
  exact hasText_of b1 b2 (a1.same b3) (a2.same b3)

/-! ### examples -/

/-- the hypotheses of C51_session and C01_roundtrip can be met -/
example : ∃ g0, After ⟨[]⟩ Cz.id g0 ∧ g0.mode = .wInit ∧ g0.names = some [] ∧ g0.acros = some [] ∧ NewName [] [] [112] ∧
    RecOk 2 1 (some [(1, 2), (1, 300)]) ([1, 300], [Dbl.one]) := by
  refine ⟨_, ⟨[.openWrite false 0 [65] 0], ?_, ?_, rfl⟩, rfl, rfl, rfl, ?_, ?_⟩
  · intro c hc
    rw [List.mem_singleton.mp hc]
    exact ⟨by decide, by unfold ZFree; decide, by decide⟩
  · intro c hc
    rw [List.mem_singleton.mp hc]
    exact ⟨fun d m h => (by cases h), fun d p h => (by cases h)⟩
  · exact ⟨(C14_ident _).mp (by decide), by simp, by simp⟩
  · refine ⟨rfl, rfl, by decide, ?_⟩
    rintro bs ⟨⟩
    exact .cons (by decide) (.cons (by decide) .nil)

/-- all records of gdxDataReadRaw, at most `n` -/
def rawList : Nat → Gx → Res (List (RecOut Int))
  | 0, _ => .ok []
  | n + 1, g => do
    let (g, o) ← dataReadRaw g
    match o with
    | none => pure []
    | some o => do
      let l ← rawList n g
      pure (o :: l)

/-- open the file of `g`, then a question -/
def reopened {α : Type} (g : Gx) (f : Gx → Res α) : Res α := do
  let (g2, r) ← openRead Cz.id Gx.new (.content g.file)
  if r = (true, 0) then f g2 else .ub

/-- the count reported at the start and all records of symbol `nr` -/
def rawSym (g : Gx) (nr : Int) : Res (Bool × Int × List (RecOut Int)) := do
  let (g, r) ← dataReadRawStart Cz.id g nr
  let l ← rawList 20 g
  pure (r.1, r.2, l)

/-- C37 fails when several records are written for a scalar: both are accepted and both are delivered -/
theorem C37_counterexample :
    after [.openWrite false 0 [] 0, .rawStart [115] [] 0 1 0, .writeRaw [] [Dbl.one], .writeRaw [] [Dbl.zero], .writeDone, .close]
      (fun g => reopened g fun g => rawSym g 1) = .ok (true, 2, [⟨[], [Dbl.one], 0⟩, ⟨[], [Dbl.zero], 0⟩]) := by decide +kernel

/-- C49 fails there too: gdxSymbolInfoX reports one record, two are delivered -/
theorem C49_counterexample :
    after [.openWrite false 0 [] 0, .rawStart [115] [] 0 1 0, .writeRaw [] [Dbl.one], .writeRaw [] [Dbl.zero], .writeDone, .close]
      (fun g => reopened g fun g => do
        let r ← rawSym g 1
        pure ((symbolInfoX g 1).recs, r.2.1, r.2.2.length)) = .ok (1, 2, 2) := by decide +kernel

/-- C49 fails for aliases: gdxSymbolInfoX reports no record, the reader delivers those of the set -/
theorem C49_alias_counterexample :
    after [.openWrite false 0 [] 0, .uelRawStart, .uelRaw [97], .uelDone, .rawStart [105] [] 1 0 0, .writeRaw [1] [Dbl.zero], .writeDone,
        .addAlias [105] [106], .close]
      (fun g => reopened g fun g => do
        let r ← rawSym g 2
        pure ((symbolInfoX g 2).recs, r.2.1, r.2.2.length)) = .ok (0, 1, 1) := by decide +kernel

/-- records in order, one equal to the one before, one smaller: two are refused, the others come back with their first changed
    positions; with key bounds the same -/
def exCalls (b : Bool) : List Call :=
  [.openWrite false 0 [] 0, .uelRawStart, .uelRaw [97], .uelRaw [98], .uelRaw [99], .uelDone,
    (if b then .rawStartBounds [112] [101] 2 1 0 [(1, 2), (1, 300)] else .rawStart [112] [101] 2 1 0),
    .writeRaw [1, 2] [Dbl.one], .writeRaw [1, 2] [Dbl.zero], .writeRaw [1, 3] [SVTab.default.eps], .writeRaw [1, 1] [Dbl.one],
    .writeRaw [2, 1] [SVTab.default.pin], .writeDone]

example : ∀ b, after (exCalls b ++ [.close]) (fun g => reopened g fun g => rawSym g 1) =
    .ok (true, 3, [⟨[1, 2], [Dbl.one], 1⟩, ⟨[1, 3], [SVTab.default.eps], 2⟩, ⟨[2, 1], [SVTab.default.pin], 1⟩]) := by decide +kernel

example : ∀ b, after (exCalls b) (fun g => .ok (dataErrorCount g, errorCount g)) = .ok (2, 2) := by decide +kernel

example : ∀ b, after (exCalls b) (fun g => .ok [(dataErrorRecordX g 1).2, (dataErrorRecordX g 2).2]) =
    .ok [some ([1, 2], [Dbl.zero]), some ([1, 1], [Dbl.one])] := by decide +kernel

example : verdicts [] 2 none [([1, 2], ()), ([1, 2], ()), ([1, 3], ()), ([1, 1], ()), ([2, 1], ())] =
    [.stored, .duplicate, .stored, .unsorted, .stored] := by decide

/-- scalars: the default record of a positive variable, a stored record -/
example : after [.openWrite false 0 [] 0, .rawStart [120] [] 0 2 3, .writeDone, .rawStart [115] [] 0 1 0, .writeRaw [] [Dbl.one], .writeDone, .close]
    (fun g => reopened g fun g => do
      let a ← rawSym g 1
      let b ← rawSym g 2
      pure (a, b)) =
    .ok ((true, 1, [⟨[], [Dbl.zero, Dbl.zero, Dbl.zero, SVTab.default.pin, Dbl.one], 0⟩]), (true, 1, [⟨[], [Dbl.one], 0⟩])) := by decide +kernel

/-- texts: a set without and a set with text -/
example : after [.openWrite false 0 [] 0, .uelRawStart, .uelRaw [97], .uelDone, .addSetText [116], .rawStart [105] [] 1 0 0,
      .writeRaw [1] [Dbl.zero], .writeDone, .rawStart [106] [] 1 0 0, .writeRaw [1] [Dbl.one], .writeDone, .close]
    (fun g => reopened g fun g => .ok (setHasText g 1, setHasText g 2)) = .ok (false, true) := by decide +kernel

/-- the universe and strings -/
def exCalls2 : List Call :=
  [.openWrite false 0 [] 0, .uelRawStart, .uelRaw [97], .uelRaw [98], .uelDone, .rawStart [105] [] 1 0 0, .writeRaw [2] [Dbl.zero],
    .writeDone, .close]

example : after exCalls2 (fun g => reopened g fun g => rawSym g 0) =
    .ok (true, 2, [⟨[1], [Dbl.zero], 1⟩, ⟨[2], [Dbl.zero], 1⟩]) := by decide +kernel

example : after exCalls2
    (fun g => reopened g fun g => do
      let (g, r) ← dataReadStrStart Cz.id g 1
      let (_, o) ← dataReadStr g
      pure (r, o)) = .ok ((true, 1), some ⟨[[98]], [Dbl.zero], 1⟩) := by decide +kernel

end Gdx.Props
