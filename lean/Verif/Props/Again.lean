import Verif.Proofs.ResRel
import Verif.Props.Reopen
import Verif.Props.Domains

/-! C48: an object that was closed is used for another file. -/

namespace Gdx.Props
open Gdx Gdx.Spec

/-! ### what an object holds of a file -/

/-- what an object holds of a file that it has begun to open: the tables, the file itself and the error register -/
def _root_.Gdx.Gx.base (g : Gx) : Gx :=
  { opened := g.opened, file := g.file, log := g.log, mode := g.mode, stat := g.stat
    uel := g.uel, texts := g.texts, mapText := g.mapText, names := g.names, domStrs := g.domStrs, sort := g.sort, readPtr := g.readPtr
    errList := g.errList, errCnt := g.errCnt, errTotal := g.errTotal, lastErr := g.lastErr, raised := g.raised, taken := g.taken
    filters := g.filters, acros := g.acros }

/-- what an object holds of a file: the tables, the file itself, the information of the header and the error register. The rest are
    the special values, the members that only matter while a symbol is written or read, and the settings of the user. -/
def _root_.Gdx.Gx.hdr (g : Gx) : Gx :=
  { g.base with
    comprLev := g.comprLev, uncompr := g.uncompr, verRead := g.verRead, producer := g.producer, producer2 := g.producer2
    fsId := g.fsId, majorPos := g.majorPos }

/-- `s` with the parts of `g` that `base` shows -/
def _root_.Gdx.Gx.onto (g s : Gx) : Gx :=
  { s with
    opened := g.opened, file := g.file, log := g.log, mode := g.mode, stat := g.stat
    uel := g.uel, texts := g.texts, mapText := g.mapText, names := g.names, domStrs := g.domStrs, sort := g.sort, readPtr := g.readPtr
    errList := g.errList, errCnt := g.errCnt, errTotal := g.errTotal, lastErr := g.lastErr, raised := g.raised, taken := g.taken
    filters := g.filters, acros := g.acros }

theorem onto_of {a b : Gx} (h : a.base = b.base) : b = a.onto b := by
  cases a; cases b
  simp only [Gx.base, Gx.mk.injEq] at h
  simp only [Gx.onto, Gx.mk.injEq]
  simp [h]

/-- `s` with the parts of `g` that `hdr` shows -/
def _root_.Gdx.Gx.onto' (g s : Gx) : Gx :=
  { g.onto s with
    comprLev := g.comprLev, uncompr := g.uncompr, verRead := g.verRead, producer := g.producer, producer2 := g.producer2
    fsId := g.fsId, majorPos := g.majorPos }

theorem onto'_of {a b : Gx} (h : a.hdr = b.hdr) : b = a.onto' b := by
  cases a; cases b
  simp only [Gx.hdr, Gx.base, Gx.mk.injEq] at h
  simp only [Gx.onto', Gx.onto, Gx.mk.injEq]
  simp [h]

theorem hdr_base {a b : Gx} (h : a.hdr = b.hdr) : a.base = b.base := by
  cases a; cases b
  simp only [Gx.hdr, Gx.base, Gx.mk.injEq] at h ⊢
  simp [h]

/-- states that look alike; the position of the next data is known for files of version 7 -/
def Near (a b : Gx) : Prop := a.hdr = b.hdr ∧ (a.verRead ≥ 7 → a.nextWrite = b.nextWrite)

/-- states that look alike, same answer -/
def AlikeH (x y : Gx × Bool) : Prop := Near x.1 y.1 ∧ x.2 = y.2

theorem openSyms_rel (z : Cz) (ix : Index) {a b : Gx} (h : Near a b) : ResRel AlikeH (openSyms z ix a) (openSyms z ix b) := by
  obtain ⟨h, hn⟩ := h
  rw [onto'_of h]
  unfold openSyms Gx.from
  dsimp only [Gx.onto', Gx.onto, Gx.dropCur]
  refine .same fun l => ?_
  split
  · exact ⟨⟨rfl, hn⟩, rfl⟩
  refine .same fun ⟨n, l⟩ => .same fun ⟨syms, l⟩ => ?_
  dsimp only
  split <;> split <;> exact ⟨⟨rfl, hn⟩, rfl⟩

/-- states that look alike and have the same universe, same answer -/
def AlikeU (x y : Gx × Bool) : Prop := AlikeH x y ∧ (x.2 = true → x.1.uelOrig = y.1.uelOrig)

theorem openUels_rel (z : Cz) (ix : Index) {a b : Gx} (h : Near a b) : ResRel AlikeU (openUels z ix a) (openUels z ix b) := by
  obtain ⟨h, hn⟩ := h
  rw [onto'_of h]
  unfold openUels Gx.from
  dsimp only [Gx.onto', Gx.onto]
  refine .same fun l => ?_
  split
  · exact ⟨⟨⟨rfl, hn⟩, rfl⟩, (fun h => nomatch h)⟩
  refine .same fun ⟨n, l⟩ => .same fun ⟨syms, l⟩ => ?_
  dsimp only
  split
  · exact ⟨⟨⟨rfl, hn⟩, rfl⟩, (fun h => nomatch h)⟩
  · exact ⟨⟨⟨rfl, hn⟩, rfl⟩, (fun _ => rfl)⟩

theorem openTexts_rel (z : Cz) (ix : Index) {a b : Gx} (h : Near a b) (hu : a.uelOrig = b.uelOrig) :
    ResRel AlikeU (openTexts z ix a) (openTexts z ix b) := by
  obtain ⟨h, hn⟩ := h
  rw [onto'_of h]
  unfold openTexts Gx.from
  dsimp only [Gx.onto', Gx.onto]
  refine .same fun l => ?_
  split
  · exact ⟨⟨⟨rfl, hn⟩, rfl⟩, (fun h => nomatch h)⟩
  refine .same fun ⟨n, l⟩ => .same fun ⟨syms, l⟩ => .same fun ⟨t, mp⟩ => ?_
  dsimp only
  split
  · exact ⟨⟨⟨rfl, hn⟩, rfl⟩, (fun h => nomatch h)⟩
  · exact ⟨⟨⟨rfl, hn⟩, rfl⟩, (fun _ => hu)⟩

theorem openAcros_rel (z : Cz) (ix : Index) {a b : Gx} (h : Near a b) (hu : a.uelOrig = b.uelOrig) :
    ResRel AlikeU (openAcros z ix a) (openAcros z ix b) := by
  obtain ⟨h, hn⟩ := h
  rw [onto'_of h]
  unfold openAcros Gx.from
  dsimp only [Gx.onto', Gx.onto]
  refine .same fun l => ?_
  split
  · exact ⟨⟨⟨rfl, hn⟩, rfl⟩, (fun h => nomatch h)⟩
  refine .same fun ⟨n, l⟩ => ?_
  dsimp only
  split
  · exact ⟨⟨⟨rfl, hn⟩, rfl⟩, (fun h => nomatch h)⟩
  · exact ⟨⟨⟨rfl, hn⟩, rfl⟩, (fun _ => hu)⟩

theorem openDoms_rel (z : Cz) (ix : Index) {a b : Gx} (h : Near a b) (hu : a.uelOrig = b.uelOrig) :
    ResRel AlikeU (openDoms z ix a) (openDoms z ix b) := by
  obtain ⟨h, hn⟩ := h
  rw [onto'_of h]
  unfold openDoms Gx.from
  dsimp only [Gx.onto', Gx.onto]
  refine .same fun l => ?_
  split
  · exact ⟨⟨⟨rfl, hn⟩, rfl⟩, (fun h => nomatch h)⟩
  refine .same fun ⟨n, l⟩ => .same fun ⟨t, l⟩ => ?_
  dsimp only
  split
  · exact ⟨⟨⟨rfl, hn⟩, rfl⟩, (fun h => nomatch h)⟩
  refine .same fun syms => .same fun ⟨syms, l⟩ => ?_
  dsimp only
  split
  · exact ⟨⟨⟨rfl, hn⟩, rfl⟩, (fun h => nomatch h)⟩
  · exact ⟨⟨⟨rfl, hn⟩, rfl⟩, (fun _ => hu)⟩

theorem thenOk_rel {R S : Gx × Bool → Gx × Bool → Prop} {x y : Res (Gx × Bool)} {f k : Gx → Res (Gx × Bool)} (h : ResRel R x y)
    (he : ∀ p q, R p q → p.2 = q.2) (hn : ∀ p q, R p q → p.2 = false → S (p.1, false) (q.1, false))
    (hf : ∀ p q, R p q → p.2 = true → ResRel S (f p.1) (k q.1)) : ResRel S (thenOk x f) (thenOk y k) := by
  unfold thenOk
  refine h.bind fun p q hr => ?_
  dsimp only
  have h2 := he p q hr
  cases hp : p.2 with
  | true => rw [← h2, hp]; exact hf p q hr hp
  | false => rw [← h2, hp]; exact hn p q hr hp

theorem openTables_rel (z : Cz) (ix : Index) (m : Int) {a b : Gx} (h : Near a b) :
    ResRel AlikeU (openTables z ix m a) (openTables z ix m b) := by
  have eU : ∀ p q, AlikeU p q → p.2 = q.2 := fun _ _ h => h.1.2
  have nU : ∀ p q : Gx × Bool, AlikeU p q → p.2 = false → AlikeU (p.1, false) (q.1, false) := fun _ _ h _ => ⟨⟨h.1.1, rfl⟩, (fun h => nomatch h)⟩
  unfold openTables
  refine thenOk_rel (openSyms_rel z ix h) (fun _ _ h => h.2) (fun _ _ h _ => ⟨⟨h.1, rfl⟩, (fun h => nomatch h)⟩) fun p q hr _ => ?_
  refine thenOk_rel (openUels_rel z ix hr.1) eU nU fun p q hr ht => ?_
  refine thenOk_rel (R := AlikeU) ?_ eU nU fun p q hr ht => ?_
  · split
    · exact openTexts_rel z ix hr.1.1 (hr.2 ht)
    · exact ⟨⟨hr.1.1, rfl⟩, fun _ => hr.2 ht⟩
  have hv : ∀ {p q : Gx}, Near p q → p.verRead = q.verRead := fun h => by
    have := congrArg Gx.verRead h.1
    exact this
  refine thenOk_rel (R := AlikeU) ?_ eU nU fun p q hr ht => ?_
  · rw [hv hr.1.1]
    split
    · exact openAcros_rel z ix hr.1.1 (hr.2 ht)
    · exact ⟨⟨hr.1.1, rfl⟩, fun _ => hr.2 ht⟩
  have h' : Near ({ p.1 with domStrs := some [] } : Gx) ({ q.1 with domStrs := some [] } : Gx) :=
    ⟨by rw [onto'_of hr.1.1.1]; rfl, hr.1.1.2⟩
  dsimp only
  refine if hc : p.1.verRead ≥ 7 ∧ ix.doms ≠ 0 then ?_ else ?_
  · rw [if_pos hc, if_pos (by rw [← hv hr.1.1]; exact hc)]
    exact openDoms_rel z ix h' (hr.2 ht)
  · rw [if_neg hc, if_neg (by rw [← hv hr.1.1]; exact hc)]
    exact ⟨⟨h', rfl⟩, fun _ => hr.2 ht⟩

theorem rdIndex_next {v : Int} {l : List UInt8} {x : Index × List UInt8} (hv : v ≥ 7) (h : rdOk (rdIndex v) l = .ok x) : ∃ n, x.1.next = some n := by
  unfold rdOk need at h
  cases hr : rdIndex v l with
  | none => rw [hr] at h; simp at h
  | some y =>
    rw [hr] at h
    obtain rfl : y = x := by simpa using h
    unfold rdIndex at hr
    rw [if_neg (by omega)] at hr
    simp only [if_pos hv] at hr
    simp only [Option.bind_eq_bind, Option.bind_eq_some_iff, Option.some.injEq] at hr
    obtain ⟨_, _, _, _, _, _, _, _, e, _, _, _, rfl⟩ := hr
    exact ⟨_, rfl⟩

/-- alike, and the same positions found -/
def AlikeX (x y : Gx × Option Index) : Prop :=
  x.2 = y.2 ∧ x.1.base = y.1.base ∧ ∀ ix, x.2 = some ix → Near x.1 y.1

theorem openHeader_rel (l : List UInt8) {a b : Gx} (h : a.base = b.base) : ResRel AlikeX (openHeader a l) (openHeader b l) := by
  rw [onto_of h]
  unfold openHeader
  dsimp only [Gx.onto]
  have no : ∀ {x y : Gx}, x.base = y.base → AlikeX (x, none) (y, none) := fun h => ⟨rfl, h, (fun _ h => nomatch h)⟩
  refine .same fun ⟨c, l⟩ => ?_
  dsimp only
  split
  · exact no rfl
  split
  · exact no rfl
  refine .same fun ⟨v, l⟩ => ?_
  dsimp only
  split
  · exact no rfl
  refine .same fun ⟨co, l⟩ => ?_
  refine .same fun ⟨m, l⟩ => ?_
  dsimp only
  split
  · exact no rfl
  refine .sameE fun ⟨ix, _⟩ hix => ?_
  refine ⟨rfl, rfl, fun _ _ => ⟨rfl, fun hv => ?_⟩⟩
  obtain ⟨n, hn⟩ := rdIndex_next hv hix
  show ix.next.getD _ = ix.next.getD _
  rw [hn]; rfl

/-! ### opening -/

/-- what gdxClose leaves: nothing of a file -/
structure Empty (g : Gx) : Prop where
  mode : g.mode = .notOpen
  stat : g.stat = .notOpen
  opened : g.opened = false
  names : g.names = none
  uel : g.uel = none
  texts : g.texts = none
  mapText : g.mapText = none
  domStrs : g.domStrs = none
  sort : g.sort = none
  errList : g.errList = none
  filters : g.filters = none
  acros : g.acros = none

theorem empty_new : Empty Gx.new := ⟨rfl, rfl, rfl, rfl, rfl, rfl, rfl, rfl, rfl, rfl, rfl, rfl⟩

theorem empty_close {z : Cz} {g g' : Gx} {r : Int} (h : gdxClose z g = .ok (g', r)) : Empty g' := by
  unfold gdxClose at h
  obtain ⟨g1, _, h⟩ := Res.bind_eq_ok.mp h
  obtain ⟨g2, _, h⟩ := Res.bind_eq_ok.mp h
  simp only [Res.pure_eq, Res.ok.injEq, Prod.mk.injEq] at h
  obtain ⟨rfl, _⟩ := h
  exact ⟨rfl, rfl, rfl, rfl, rfl, rfl, rfl, rfl, rfl, rfl, rfl, rfl⟩

/-- the same answer of two openings for writing, and if the file was opened the same content -/
def SameWrite (x y : Gx × (Bool × Int)) : Prop :=
  x.2 = y.2 ∧ (x.2.1 = true → x.1.hdr.stat = .write ∧ { x.1.hdr with uncompr := false } = { y.1.hdr with uncompr := false } ∧
    x.1.sv = y.1.sv ∧ x.1.rsv = y.1.rsv ∧ x.1.comprOut = y.1.comprOut ∧ x.1.nextWrite = y.1.nextWrite) ∧
    (x.2.1 = false → Empty x.1)

/-- the same answer of two openings for reading, and if the file was opened the same content -/
def SameRead (x y : Gx × (Bool × Int)) : Prop :=
  x.2 = y.2 ∧ (x.2.1 = true → Near x.1 y.1 ∧ x.1.sv = y.1.sv ∧ x.1.rsv = y.1.rsv ∧ x.1.uelOrig = y.1.uelOrig)

theorem openWriteEx_same (e : Env) {a b : Gx} (ha : Empty a) (hb : Empty b) (ne : Bool) (io : Int) (p : Str) (c : Int) :
    ResRel SameWrite (openWriteEx e a ne io p c) (openWriteEx e b ne io p c) := by
  unfold openWriteEx
  rw [ha.mode, hb.mode]
  simp only [ne_eq, not_true_eq_false, if_false]
  split
  · exact ⟨rfl, (fun h => nomatch h), fun _ => ⟨rfl, ha.stat, ha.opened, ha.names, ha.uel, ha.texts, ha.mapText, ha.domStrs, ha.sort,
      ha.errList, ha.filters, ha.acros⟩⟩
  split
  · exact ⟨rfl, (fun h => nomatch h), fun _ => ⟨rfl, ha.stat, rfl, ha.names, ha.uel, ha.texts, ha.mapText, ha.domStrs, ha.sort,
      ha.errList, ha.filters, ha.acros⟩⟩
  refine .same fun h => ?_
  refine ⟨rfl, fun _ => ⟨rfl, ?_, rfl, rfl, rfl, rfl⟩, (fun h => nomatch h)⟩
  simp only [Gx.put, Gx.initErrors, Gx.hdr, Gx.base, Gx.dropCur, ha.mapText, hb.mapText, ha.sort, hb.sort, ha.errList, hb.errList]

theorem openReadXX_same (z : Cz) {a b : Gx} (ha : Empty a) (hb : Empty b) (d : Disk) (m : Int) :
    ResRel SameRead (openReadXX z a d m) (openReadXX z b d m) := by
  unfold openReadXX
  rw [ha.mode, hb.mode]
  simp only [ne_eq, not_true_eq_false, if_false]
  have no : ∀ {x y : Gx}, x.base = y.base → SameRead (openFail x) (openFail y) := fun {x y} h =>
    ⟨by rw [onto_of h]; rfl, (fun h => nomatch h)⟩
  have ng : ∀ {x y : Gx} (e : Int), SameRead (openNoGood x e) (openNoGood y e) := fun {x y} e =>
    ⟨rfl, (fun h => nomatch h)⟩
  cases d with
  | noName => exact ng _
  | ioErr e => exact ng _
  | content f =>
    dsimp only
    have hB : ({ ({ a.initErrors with readPtr := none } : Gx) with opened := true, file := f, log := [] } : Gx).base =
        ({ ({ b.initErrors with readPtr := none } : Gx) with opened := true, file := f, log := [] } : Gx).base := by
      simp only [Gx.initErrors, Gx.base, ha.mode, ha.stat, ha.names, ha.uel, ha.texts, ha.mapText, ha.domStrs, ha.sort,
        ha.errList, ha.filters, ha.acros, hb.mode, hb.stat, hb.names, hb.uel, hb.texts, hb.mapText, hb.domStrs, hb.sort,
        hb.errList, hb.filters, hb.acros]
    refine .same fun ⟨o, l⟩ => ?_
    dsimp only
    split
    · exact ng _
    split
    · trivial
    refine (openHeader_rel l hB).bind fun ⟨x, i⟩ ⟨y, j⟩ ⟨h1, h2, h3⟩ => ?_
    dsimp only at h1 h2 h3
    subst h1
    cases i with
    | none => exact no h2
    | some ix =>
      have h3 := h3 ix rfl
      dsimp only
      refine ((openTables_rel z ix m h3)).bind fun ⟨x', i⟩ ⟨y', j⟩ ⟨⟨h1, h2⟩, h3⟩ => ?_
      dsimp only at h1 h2 h3
      subst h2
      cases i with
      | false => exact no (hdr_base h1.1)
      | true =>
        refine ⟨rfl, fun _ => ⟨⟨?_, h1.2⟩, rfl, rfl, h3 rfl⟩⟩
        rw [onto'_of h1.1]; rfl

theorem close_idle (z : Cz) {g : Gx} (h : g.mode = .notOpen ∨ g.mode = .rInit) : gdxClose z g = .ok (g.freeAll, if g.opened then 0 else 1) := by
  unfold gdxClose finishWrite saveIf
  rcases h with h | h <;> simp [h]

theorem close_closed (z : Cz) {g : Gx} (h : Empty g) : gdxClose z g = .ok (g.freeAll, 1) := by
  rw [close_idle z (Or.inl h.mode), h.opened]
  rfl

/-- C48: gdxClose for an object without an open file - a new one, or one that was closed - changes nothing; its result is 1. -/
theorem C48_idle (z : Cz) {g : Gx} (h : g = Gx.new ∨ ∃ z' g0 r, gdxClose z' g0 = .ok (g, r)) : gdxClose z g = .ok (g, 1) := by
  rcases h with rfl | ⟨z', g0, r, h⟩
  · rw [close_closed z empty_new]; rfl
  · have he := empty_close h
    rw [close_closed z he]
    unfold gdxClose at h
    obtain ⟨g1, _, h⟩ := Res.bind_eq_ok.mp h
    obtain ⟨g2, _, h⟩ := Res.bind_eq_ok.mp h
    simp only [Res.pure_eq, Res.ok.injEq, Prod.mk.injEq] at h
    obtain ⟨rfl, _⟩ := h
    cases hc : g2.cur <;> simp [Gx.freeAll, Gx.dropCur, hc]

/-- C48, opening for writing after gdxClose, whatever happened before: same answer as of a new object, and the same tables, file,
    error register, special values and positions. Missing: the members that matter only while a symbol is written or read, and the
    settings of the user, keep their values (see the counterexamples below). -/
theorem C48_write_partial (e : Env) (z : Cz) {g g' : Gx} {r : Int} (hc : gdxClose z g = .ok (g', r)) (ne : Bool) (io : Int) (p : Str) (c : Int) :
    ResRel SameWrite (openWriteEx e g' ne io p c) (openWriteEx e Gx.new ne io p c) :=
  openWriteEx_same e (empty_close hc) empty_new ne io p c

/-- C48, opening for reading after gdxClose: same answer as of a new object for every content of the file, and if it is success the
    same tables, header, error register and special values. -/
theorem C48_read_partial (z : Cz) {g g' : Gx} {r : Int} (hc : gdxClose z g = .ok (g', r)) (d : Disk) (m : Int) :
    ResRel SameRead (openReadXX z g' d m) (openReadXX z Gx.new d m) :=
  openReadXX_same z (empty_close hc) empty_new d m

/-- C48, opening for appending after gdxClose. -/
theorem C48_append_partial (z : Cz) {g g' : Gx} {r : Int} (hc : gdxClose z g = .ok (g', r)) (d : Disk) (p : Str) :
    ResRel (fun x y => SameRead x y ∧ (x.2.1 = true → x.1.comprOut = y.1.comprOut)) (openAppend z g' d p) (openAppend z Gx.new d p) := by
  have ha : Empty { g' with producer2 := p, appendActive := true } := by
    have := empty_close hc
    exact ⟨this.1, this.2, this.3, this.4, this.5, this.6, this.7, this.8, this.9, this.10, this.11, this.12⟩
  have hb : Empty { Gx.new with producer2 := p, appendActive := true } := ⟨rfl, rfl, rfl, rfl, rfl, rfl, rfl, rfl, rfl, rfl, rfl, rfl⟩
  unfold openAppend
  refine ((openReadXX_same z ha hb d 0).withLeft (openReadXX_mode z _ d 0)).bind fun ⟨x, a⟩ ⟨y, b⟩ ⟨⟨h1, h2⟩, hm⟩ => ?_
  dsimp only at h1 h2 ⊢
  subst h1
  cases hs : a.1 with
  | false =>
    simp only [if_true]
    exact ⟨⟨rfl, fun h => by rw [hs] at h; exact nomatch h⟩, fun h => by rw [hs] at h; exact nomatch h⟩
  | true =>
    obtain ⟨h2, h3, h4, h5⟩ := h2 hs
    simp only [Bool.true_eq_false, if_false]
    have hv : x.verRead = y.verRead := by have := congrArg Gx.verRead h2.1; exact this
    have hu : x.uncompr = y.uncompr := by have := congrArg Gx.uncompr h2.1; exact this
    refine if hc : x.verRead < 7 then ?_ else ?_
    · rw [if_pos hc, if_pos (hv ▸ hc)]
      have hm : x.mode = .notOpen ∨ x.mode = .rInit := by
        rcases hm with ⟨hm, _⟩ | ⟨_, hm⟩
        · exact absurd ha.mode hm
        · exact hm
      have hy : y.mode = x.mode := by have := congrArg Gx.mode h2.1; exact this.symm
      rw [close_idle z (g := x.raise Err.fileTooOldForAppend) hm, close_idle z (g := y.raise Err.fileTooOldForAppend) (by rw [← hy] at hm; exact hm)]
      exact ⟨⟨rfl, (fun h => nomatch h)⟩, (fun h => nomatch h)⟩
    · rw [if_neg hc, if_neg (hv ▸ hc)]
      refine ⟨⟨rfl, fun _ => ⟨⟨?_, h2.2⟩, h3, h4, h5⟩⟩, fun _ => hu⟩
      rw [onto'_of h2.1]; rfl

/-! ### influence of the previous file -/

/-- a file with an element, a set and a parameter, read with another object -/
def exOld48 : List Call := [.openWrite false 0 [65] 0, .uelRawStart, .uelRaw [97], .uelRaw [98], .uelDone, .rawStart [105] [] 1 0 0,
  .writeRaw [1] [Dbl.zero], .writeRaw [2] [Dbl.zero], .writeDone]

/-- C48 fails: a comment for "the current symbol" is refused by a new object (no symbol yet), after a file was read the library uses the
    freed record of the last symbol of that file. -/
theorem C48_dangling :
    after [.openWrite false 0 [65] 0] (fun g => do
      let (_, ok) ← symbolAddComment g 0 [104]
      pure ok) = .ok false ∧
    reopened26 exOld48 (fun g => do
      let g ← run ⟨[]⟩ Cz.id g [.close, .openWrite false 0 [65] 0]
      let (_, ok) ← symbolAddComment g 0 [104]
      pure ok) = .ub := by decide +kernel

/-- C48 fails: the number of elements that gdxSymbolInfoX reports for the universe of a file that is being written is that of the file
    read before. -/
theorem C48_count :
    after [.openWrite false 0 [65] 0] (fun g => pure (symbolInfoX g 0).recs) = .ok 0 ∧
    reopened26 exOld48 (fun g => do
      let g ← run ⟨[]⟩ Cz.id g [.close, .openWrite false 0 [65] 0]
      pure (symbolInfoX g 0).recs) = .ok 2 := by decide +kernel

/-- reads the universe with the user's numbers 1 and 2 for its elements; the first positions that changed -/
def universe48 (g : Gx) : Res (List (Option Nat)) := do
  let g ← run ⟨[]⟩ Cz.id g [.uelMapStart, .uelMap 1 [97], .uelMap 2 [98], .uelDone]
  let (g, _) ← dataReadMapStart Cz.id g 0
  let (g, a) ← dataReadMap g [0]
  let (_, b) ← dataReadMap g [1]
  pure [a.map RecOut.frst, b.map RecOut.frst]

/-- C48 fails: what the mapped reader of the universe reports as first changed position depends on the file read before. -/
theorem C48_universe : reopened26 exOld48 universe48 = .ok [some 1, some 1] ∧
    reopened26 exOld48 (fun g => do
      let f := g.file
      let g ← run ⟨[]⟩ Cz.id g [.uelMapStart, .uelMap 1 [97], .uelMap 2 [98], .uelDone, .readMapStart 1, .readMap [0], .readDone, .close,
        .openRead (.content f) 0]
      universe48 g) = .ok [some 0, some 1] := by decide +kernel

/-- what the theorems are about: an object that has written a file is closed, its second file is opened like the first one of a new object -/
example : after (exOld48 ++ [.close]) (fun g => do
    let (a, _) ← openWriteEx ⟨[]⟩ g false 0 [66] 0
    let (b, _) ← openWriteEx ⟨[]⟩ Gx.new false 0 [66] 0
    pure [a == b, a.hdr == b.hdr, a.names == some [], a.file == b.file, a.file == []]) = .ok [false, true, true, true, false] := by decide +kernel

/-- and for reading -/
example : after exOld48 (fun g => do
    let (g, _) ← gdxClose Cz.id g
    let (a, ra) ← openRead Cz.id g (.content g.file)
    let (b, rb) ← openRead Cz.id Gx.new (.content g.file)
    pure [a == b, a.hdr == b.hdr, ra == (true, 0), rb == (true, 0), a.names.map List.length == some 1]) = .ok [false, true, true, true, true] := by decide +kernel

#print axioms C48_idle
#print axioms C48_write_partial
#print axioms C48_read_partial
#print axioms C48_append_partial
#print axioms C48_dangling
#print axioms C48_count
#print axioms C48_universe

end Gdx.Props
