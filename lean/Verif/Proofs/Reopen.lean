import Verif.Proofs.TableRound
import Verif.Props.ByteOrder

/-!
gdxOpenRead after gdxClose.
-/

namespace Gdx

open Gdx.Props

/-! ### places in a file -/

theorem splice_drop_at (f : List UInt8) (p : Nat) (bs : List UInt8) (hb : bs ≠ []) :
    (splice f p bs).drop p = bs ++ f.drop (p + bs.length) := by
  unfold splice
  rw [if_neg hb, List.append_assoc, List.drop_append, List.drop_eq_nil_of_le (by simp)]
  have : p - ((f ++ List.replicate (p - f.length) 0).take p).length = 0 := by simp; omega
  rw [this]
  simp

theorem splice_drop_behind (f : List UInt8) (p q : Nat) (bs : List UInt8) (h : p + bs.length ≤ q) :
    (splice f p bs).drop q = f.drop q := by
  apply List.ext_getElem?
  intro i
  rw [List.getElem?_drop, List.getElem?_drop, splice_getElem?]
  split
  · rfl
  · rw [if_neg (by omega), if_neg (by omega)]

theorem canBeQuotedLoop_zero : ∀ (s : Str) (a b : Bool), canBeQuotedLoop a b s = true → (0 : UInt8) ∈ s → False
  | [], _, _, _, h => by cases h
  | c :: cs, a, b, h, hc => by
    unfold canBeQuotedLoop at h
    by_cases h0 : c = 0
    · subst h0
      revert h
      rw [if_neg (by decide), if_neg (by decide), if_pos (by decide)]
      decide
    · have hcs : (0 : UInt8) ∈ cs := by
        rcases List.mem_cons.mp hc with h1 | h1
        · exact absurd h1.symm h0
        · exact h1
      split at h
      · split at h
        · cases h
        · exact canBeQuotedLoop_zero cs _ _ h hcs
      split at h
      · split at h
        · cases h
        · exact canBeQuotedLoop_zero cs _ _ h hcs
      split at h
      · cases h
      · exact canBeQuotedLoop_zero cs _ _ h hcs

theorem goodUEL_zfree {s : Str} (h : goodUEL s = true) : ZFree s := by
  intro c hc h0
  subst h0
  unfold goodUEL canBeQuoted at h
  rw [Bool.and_eq_true] at h
  exact canBeQuotedLoop_zero s _ _ h.2 hc

/-! ### the header -/

theorem openHeader_ok {e : Env} {c : Int} {p : Str} {h : List UInt8} (hh : fileHeader e c p = .ok h) (hc : c = 0 ∨ c = 1)
    (g : Gx) (ix : Index) (rest : List UInt8) (rest' : List UInt8) (hf : g.file = h ++ (wrInt markBoi ++ rest))
    (hi : rdIndex 7 rest = some (ix, rest')) :
    ∃ l o, determineByteOrder false g.file = some (o, l) ∧ goodByteOrder o = 0 ∧ o = ⟨0, 0, 0⟩ ∧
      openHeader g l = .ok ({ g with verRead := 7, uncompr := decide (c > 0), comprLev := c, fsId := e.audit, producer := p
                                     producer2 := [], majorPos := h.length, nextWrite := ix.next.getD g.nextWrite }, some ix) := by
  unfold fileHeader at hh
  obtain ⟨a, ha, hh⟩ := Res.bind_eq_ok.mp hh
  obtain ⟨b, hb, hh⟩ := Res.bind_eq_ok.mp hh
  cases hh
  obtain ⟨rfl, ha2⟩ := wrString_ok ha
  obtain ⟨rfl, hb2⟩ := wrString_ok hb
  simp only [List.append_assoc] at hf
  obtain ⟨o, ho1, ho2, ho3, ho4, ho5⟩ := C21_header false false
    ([123] ++ (encStr headerId ++ (wrInt 7 ++ (wrInt c ++ (encStr e.audit ++ (encStr p ++ (wrInt markBoi ++ rest)))))))
  refine ⟨_, o, by rw [hf]; exact ho1, ho2, ?_, ?_⟩
  · cases o
    simp at ho3 ho4 ho5
    simp [ho3, ho4, ho5]
  unfold openHeader
  rw [(Reads.byte _).ok]
  simp only [Res.bind_ok]
  rw [if_neg (by decide), rdStrE_encStr (by decide)]
  simp only
  rw [if_neg (by decide), (Reads.int (by decide)).ok]
  simp only [Res.bind_ok]
  rw [if_neg (by decide)]
  have hcr : ∀ r, rdCompr 7 (wrInt c ++ r) = .ok (c, r) := fun r => by
    unfold rdCompr
    rw [if_neg (by decide)]
    exact (Reads.int (by rcases hc with rfl | rfl <;> decide)).ok r
  rw [hcr]
  simp only [Res.bind_ok]
  rw [rdStrE_encStr ha2]
  simp only
  rw [rdStrE_encStr hb2]
  simp only
  rw [(Reads.int (by decide)).ok]
  simp only [Res.bind_ok]
  rw [if_neg (by decide)]
  unfold rdOk
  rw [hi]
  simp only [need, Res.bind_ok, Res.pure_eq]
  have hm : g.file.length - (wrInt markBoi ++ rest).length = (orderHeader false ++ [123] ++ encStr headerId ++ wrInt 7 ++ wrInt c ++
      encStr e.audit ++ encStr p).length := by
    rw [hf]
    simp only [List.length_append]
    omega
  rw [hm]

theorem rdIndex_indexBytes (p : Int) (t : Tables) (hp : 0 ≤ p) (h : p + t.all.length ≤ 9223372036854775807) (r : List UInt8) :
    ∃ b, indexBytes p t = wrInt markBoi ++ b ∧ rdIndex 7 (b ++ r) = some (⟨p, p + t.symb.length + t.text.length, p + t.symb.length,
      p + t.symb.length + t.text.length + t.uels.length, some p,
      p + t.symb.length + t.text.length + t.uels.length + t.acro.length⟩, r) := by
  unfold Tables.all at h
  simp only [List.length_append] at h
  refine ⟨_, rfl, ?_⟩
  unfold rdIndex
  rw [if_neg (by decide)]
  simp only [List.append_assoc]
  have hh : ∀ x : Int, 0 ≤ x → x ≤ 9223372036854775807 → I64 x := fun x h1 h2 => ⟨by omega, h2⟩
  rw [(Reads.int64 (hh _ (by omega) (by omega))).bind]; dsimp only
  rw [(Reads.int64 (hh _ (by omega) (by omega))).bind]; dsimp only
  rw [(Reads.int64 (hh _ (by omega) (by omega))).bind]; dsimp only
  rw [if_pos (by decide)]
  rw [(Reads.int64 (hh _ (by omega) (by omega))).bind]; dsimp only
  rw [(Reads.int64 (hh _ (by omega) (by omega))).bind]; dsimp only
  rw [(Reads.int64 (hh _ (by omega) (by omega))).bind]

/-! ### the tables -/

theorem from_ok {z : Cz} (hz : z.Good) {g : Gx} {pos : Int} {bs t : List UInt8} (hp : 0 ≤ pos)
    (h : g.file.drop pos.toNat = z.wr g.uncompr bs ++ t) : ∃ u, g.from z pos = .ok (bs ++ u) := by
  unfold Gx.from
  rw [if_neg (by omega), h]
  unfold Cz.rd Cz.wr
  cases g.uncompr with
  | false => exact ⟨t, rfl⟩
  | true =>
    obtain ⟨u, hu⟩ := hz bs t
    exact ⟨u, by rw [if_pos rfl, if_pos rfl, hu]⟩

theorem openSyms_ok {z : Cz} (hz : z.Good) {g : Gx} {ix : Index} {syms : List Sym} {bs t : List UInt8} (hv : g.verRead = 7)
    (hp : 0 ≤ ix.symb) (hw : wrSymbs syms = .ok bs) (h : g.file.drop ix.symb.toNat = z.wr g.uncompr bs ++ t)
    (hn : (syms.length : Int) ≤ 2147483647) (hs : ∀ s ∈ syms, SymFits s) :
    ∃ c, openSyms z ix g = .ok ({ g with names := some (syms.map Sym.stored), acros := some [], filters := some [], cur := c }, true) ∧
      (c = .none ∨ c = .dangling ∨ c = .sym syms.length) := by
  obtain ⟨u, hu⟩ := from_ok hz hp h
  unfold wrSymbs at hw
  obtain ⟨b, hb, hw⟩ := Res.bind_eq_ok.mp hw
  cases hw
  unfold section' at hu
  unfold openSyms
  simp only [List.append_assoc] at hu
  rw [hu]
  simp only [Res.bind_ok]
  rw [rdStrE_encStr (by decide)]
  simp only
  rw [if_neg (by decide), (Reads.int ⟨by omega, hn⟩).ok]
  simp only [Res.bind_ok]
  have hm := (Reads.many (rd := rdSym 7) hb (fun s hs' b hb => Reads.sym hb (hs s hs'))).ok (encStr markSymb ++ u)
  rw [← hv] at hm
  rw [Int.toNat_natCast, hm]
  simp only [Res.bind_ok]
  rw [rdStrE_encStr (by decide)]
  simp only
  rw [if_neg (by simp)]
  by_cases he : syms = []
  · refine ⟨g.dropCur.cur, ?_, ?_⟩
    · rw [if_pos (by simpa using he)]
      rfl
    · unfold Gx.dropCur
      cases g.cur <;> simp
  · refine ⟨.sym syms.length, ?_, by simp⟩
    rw [if_neg (by simpa using he), List.length_map]
    rfl

theorem openUels_ok {z : Cz} (hz : z.Good) {g : Gx} {ix : Index} {uel : Uel} {bs t : List UInt8}
    (hp : 0 ≤ ix.uels) (hw : wrUels uel = .ok bs) (h : g.file.drop ix.uels.toNat = z.wr g.uncompr bs ++ t)
    (hf : is2001 g.fsId = false) (hn : (uel.ents.length : Int) ≤ 2147483647) (hs : ∀ s ∈ uel.strs, ZFree s) :
    openUels z ix g = .ok ({ g with uel := some { Uel.empty with ents := uel.strs.map (·, -1) }, uelOrig := uel.ents.length }, true) := by
  obtain ⟨u, hu⟩ := from_ok hz hp h
  unfold wrUels at hw
  obtain ⟨b, hb, hw⟩ := Res.bind_eq_ok.mp hw
  cases hw
  have hl : uel.strs.length = uel.ents.length := by simp [Uel.strs]
  obtain ⟨b', rfl, h1, h2⟩ := Reads.strs hb (by rw [hl]; exact hn) hs (encStr markUel ++ u)
  unfold section' at hu
  unfold openUels
  simp only [List.append_assoc] at hu h1
  rw [hu]
  simp only [Res.bind_ok]
  rw [rdStrE_encStr (by decide)]
  simp only
  rw [if_neg (by decide), h1]
  simp only [Res.bind_ok]
  rw [hf, if_neg (by decide), Int.toNat_natCast, h2]
  simp only [Res.bind_ok]
  rw [rdStrE_encStr (by decide)]
  simp only
  rw [if_neg (by simp), hl]
  rfl

theorem openTexts_ok {z : Cz} (hz : z.Good) {g : Gx} {ix : Index} {l : List (Str × Int)} {bs t : List UInt8}
    (hp : 0 ≤ ix.text) (hw : wrTexts (some l) = .ok bs) (h : g.file.drop ix.text.toNat = z.wr g.uncompr bs ++ t)
    (hn : (l.length : Int) ≤ 2147483647) (hs : TextsZ l) :
    openTexts z ix g = .ok ({ g with texts := some (l.map fun p => (p.1, 0)) }, true) := by
  obtain ⟨u, hu⟩ := from_ok hz hp h
  unfold wrTexts at hw
  obtain ⟨b, hb, hw⟩ := Res.bind_eq_ok.mp hw
  cases hw
  obtain ⟨b', rfl, h1, h2⟩ := Reads.strs hb (by simpa using hn) (fun s hs' => ((TextsZ.iff.mp hs).2 s hs').1) (encStr markSett ++ u)
  unfold section' at hu
  unfold openTexts
  simp only [List.append_assoc] at hu h1
  rw [hu]
  simp only [Res.bind_ok]
  rw [rdStrE_encStr (by decide)]
  simp only
  rw [if_neg (by decide), h1]
  simp only [Res.bind_ok]
  rw [Int.toNat_natCast, h2]
  simp only [Res.bind_ok]
  rw [addTexts_distinct _ _ 0 [] _ rfl (by simpa using hs.distinct)]
  simp only [Res.bind_ok]
  rw [rdStrE_encStr (by decide)]
  simp only
  rw [if_neg (by simp)]
  simp [Function.comp_def]

theorem openAcros_ok {z : Cz} (hz : z.Good) {g : Gx} {ix : Index} {l : List Acr} {bs t : List UInt8}
    (hp : 0 ≤ ix.acro) (hw : wrAcros l = .ok bs) (h : g.file.drop ix.acro.toNat = z.wr g.uncompr bs ++ t)
    (hn : (l.length : Int) ≤ 2147483647) (hs : ∀ a ∈ l, I32 a.map) :
    openAcros z ix g = .ok ({ g with acros := some (l.map Acr.reopened) }, true) := by
  obtain ⟨u, hu⟩ := from_ok hz hp h
  unfold wrAcros at hw
  obtain ⟨b, hb, hw⟩ := Res.bind_eq_ok.mp hw
  cases hw
  unfold section' at hu
  unfold openAcros
  simp only [List.append_assoc] at hu
  rw [hu]
  simp only [Res.bind_ok]
  rw [rdStrE_encStr (by decide)]
  simp only
  rw [if_neg (by decide), (Reads.acros hb hn hs).ok]
  simp only [Res.bind_ok]
  rw [rdStrE_encStr (by decide)]
  simp only
  rw [if_neg (by simp)]
  rfl

theorem openDoms_ok {z : Cz} (hz : z.Good) {g : Gx} {ix : Index} {l : List Str} {syms : List Sym} {bs t : List UInt8}
    (hp : 0 ≤ ix.doms) (hw : wrDoms l syms = .ok bs) (h : g.file.drop ix.doms.toNat = z.wr g.uncompr bs ++ t)
    (hg : g.names = some (syms.map Sym.stored))
    (hn : (l.length : Int) ≤ 2147483647) (hs : ∀ s ∈ l, ZFree s) (hm : (syms.length : Int) ≤ 2147483647)
    (hd : ∀ s ∈ syms, 0 ≤ s.dim) (hr : ∀ s ∈ syms, ∀ l, s.domStrs = some l → l.length = s.dim.toNat ∧ ∀ d ∈ l, I32 d) :
    openDoms z ix g = .ok ({ g with domStrs := some l, names := some (syms.map Sym.reopened) }, true) := by
  obtain ⟨u, hu⟩ := from_ok hz hp h
  unfold wrDoms at hw
  obtain ⟨b, hb, hw⟩ := Res.bind_eq_ok.mp hw
  cases hw
  obtain ⟨b', rfl, h1, h2⟩ := Reads.strs hb hn hs (encStr markDoms ++ (wrRelaxed 1 syms ++ (encStr markDoms ++ u)))
  unfold openDoms
  simp only [List.append_assoc] at hu h1
  rw [hu]
  simp only [Res.bind_ok]
  rw [rdStrE_encStr (by decide)]
  simp only
  rw [if_neg (by decide), h1]
  simp only [Res.bind_ok]
  rw [Int.toNat_natCast, h2]
  simp only [Res.bind_ok]
  rw [rdStrE_encStr (by decide)]
  simp only
  rw [if_neg (by simp), hg]
  simp only [need, Res.bind_ok]
  have := rdRelaxed_wrRelaxed syms [] (wrRelaxed 1 syms ++ (encStr markDoms ++ u)).length (encStr markDoms ++ u)
    (by simp) (by simpa using hm) hd hr
  simp only [List.length_nil, List.nil_append, Int.natCast_zero, zero_add, Nat.cast_zero] at this
  rw [this]
  simp only [Res.bind_ok]
  rw [rdStrE_encStr (by decide)]
  simp only
  rw [if_neg (by simp)]
  rfl


/-! ### all together -/

/-- numbers that fit into the fields of the file -/
structure FileFits (g : Gx) : Prop where
  syms : ∀ l, g.names = some l → (l.length : Int) ≤ 2147483647 ∧ ∀ s ∈ l, I32 s.errors ∧ (s.comments.length : Int) ≤ 2147483647
  texts : ∀ l, g.texts = some l → (l.length : Int) ≤ 2147483647
  uels : ∀ u, g.uel = some u → (u.ents.length : Int) ≤ 2147483647
  acros : ∀ l, g.acros = some l → (l.length : Int) ≤ 2147483647
  doms : ∀ l, g.domStrs = some l → (l.length : Int) ≤ 2147483647

/-- the object after opening the file written by `g` (what was in memory stays where nothing is said) -/
structure Reopened (rm : Int) (g : Gx) (f : List UInt8) (g2 : Gx) : Prop where
  names : ∃ l, g.names = some l ∧ g2.names = some (l.map Sym.reopened)
  uel : ∃ u, g.uel = some u ∧ g2.uel = some { Uel.empty with ents := u.strs.map (·, -1) } ∧ g2.uelOrig = u.ents.length
  texts : rm % 2 = 0 → ∃ l, g.texts = some l ∧ g2.texts = some (l.map fun p => (p.1, 0))
  acros : ∃ l, g.acros = some l ∧ g2.acros = some (l.map Acr.reopened)
  doms : ∃ l, g.domStrs = some l ∧ g2.domStrs = some l
  next : g2.nextWrite = g.nextWrite
  major : g2.majorPos = g.majorPos
  ver : g2.verRead = 7
  fs : g2.fsId = g.fsId
  prod : g2.producer = g.producer
  prod2 : g2.producer2 = []
  lev : g2.comprLev = g.comprLev
  unc : g2.uncompr = g.comprOut
  mode : g2.mode = .rInit
  stat : g2.stat = .read
  opn : g2.opened = true
  file : g2.file = f
  err : g2.lastErr = 0 ∧ g2.errCnt = 0 ∧ g2.errTotal = 0
  sv : g2.sv = SVTab.default ∧ g2.rsv = SVTab.default
  filt : g2.filters = some []

/-- what stays of the object that opens the file -/
structure OpenKeep (rm : Int) (g0 g2 : Gx) : Prop where
  texts : rm % 2 ≠ 0 → g2.texts = g0.texts
  mapText : g2.mapText = g0.mapText
  dcnt : g2.dataCount = g0.dataCount
  acrNaN : g2.acrNaN = g0.acrNaN
  storeDom : g2.storeDom = g0.storeDom
  allowBogus : g2.allowBogus = g0.allowBogus
  nextAuto : g2.nextAuto = g0.nextAuto
  readPtr : g2.readPtr = none
  modeAft : g2.modeAft = g0.modeAft
  append : g2.appendActive = g0.appendActive
  cur : g2.cur = .none ∨ g2.cur = .dangling ∨ ∃ l, g2.names = some l ∧ g2.cur = .sym l.length

theorem SymOk.fits {syms : List Sym} {nd n : Nat} {s : Sym} (h : SymOk syms nd n s) (hn : (syms.length : Int) ≤ 2147483647)
    (hnn : n < syms.length) (hp : I64 s.pos) (he : I32 s.errors) (hc : (s.comments.length : Int) ≤ 2147483647) : SymFits s where
  pos := hp
  dim := h.dim
  typ := h.typ
  ui := by
    by_cases ht : s.typ = dtAlias
    · rcases h.ali ht with ⟨h1, _⟩ | ⟨m, t, h1, h2, _⟩
      · rw [h1]; decide
      · rw [h2]; constructor <;> omega
    · exact h.ui ht
  cnt := by have := h.cnt; unfold intMax at this; constructor <;> omega
  err := he
  com := hc
  comz := fun t ht => (h.com t ht).1
  name := (ident_zfree h.good).1
  expl := h.expl.1
  dsy := fun l hl => ⟨(h.dsy l hl).1, fun d hd => by have := (h.dsy l hl).2 d hd; constructor <;> omega⟩

theorem put_file (g : Gx) (p : Nat) (bs : List UInt8) : (g.put p bs).file = splice g.file p bs := rfl

theorem indexBytes_length (p : Int) (t : Tables) : (indexBytes p t).length = 52 := by
  unfold indexBytes
  simp

/-- the tables cannot be empty -/
theorem tables_ne {z : Cz} (hz : z.Good) {g : Gx} {t : Tables} (h : wrTables z g = .ok t) : t.all ≠ [] := by
  intro he
  unfold Tables.all at he
  simp only [List.append_eq_nil_iff] at he
  unfold wrTables at h
  obtain ⟨syms, h0, h⟩ := Res.bind_eq_ok.mp h
  obtain ⟨a, h1, h⟩ := Res.bind_eq_ok.mp h
  obtain ⟨b, h2, h⟩ := Res.bind_eq_ok.mp h
  obtain ⟨u, h3, h⟩ := Res.bind_eq_ok.mp h
  obtain ⟨c, h4, h⟩ := Res.bind_eq_ok.mp h
  obtain ⟨ac, h5, h⟩ := Res.bind_eq_ok.mp h
  obtain ⟨d, h6, h⟩ := Res.bind_eq_ok.mp h
  obtain ⟨dm, h7, h⟩ := Res.bind_eq_ok.mp h
  obtain ⟨e, h8, h⟩ := Res.bind_eq_ok.mp h
  cases h
  have ha : ∃ x, a = encStr markSymb ++ x := by
    unfold wrSymbs at h1
    obtain ⟨b', _, h1⟩ := Res.bind_eq_ok.mp h1
    cases h1
    exact ⟨_, rfl⟩
  have hb : ∃ x, b = encStr markSett ++ x := by
    unfold wrTexts at h2
    obtain ⟨b', _, h2⟩ := Res.bind_eq_ok.mp h2
    cases h2
    exact ⟨_, rfl⟩
  obtain ⟨x, rfl⟩ := ha
  obtain ⟨y, rfl⟩ := hb
  obtain ⟨he1, he2, _⟩ := he
  unfold Cz.wr at he1 he2
  cases hc : g.comprOut with
  | false =>
    rw [hc, if_neg (by decide)] at he1
    simp [encStr] at he1
  | true =>
    simp only [hc, if_true] at he1 he2
    obtain ⟨u1, hu1⟩ := hz (encStr markSymb ++ x) []
    obtain ⟨u2, hu2⟩ := hz (encStr markSett ++ y) []
    rw [he1] at hu1
    rw [he2, hu1] at hu2
    have := congrArg (List.take 7) hu2
    rw [List.append_assoc, List.append_assoc, List.take_append_of_le_length (by decide),
      List.take_append_of_le_length (by decide)] at this
    revert this
    decide

theorem close_open {z : Cz} (hz : z.Good) {g g' : Gx} {r : Int} (hi : Inv g) (hm : g.mode = .wInit) (hs : g.stat = .write)
    (hc : gdxClose z g = .ok (g', r)) (hf : FileFits g) (hl : (g'.file.length : Int) ≤ 9223372036854775807)
    (g0 : Gx) (h0 : g0.mode = .notOpen) (rm : Int) :
    ∃ g2, openReadXX z g0 (.content g'.file) rm = .ok (g2, (true, 0)) ∧ Reopened rm g g'.file g2 ∧ OpenKeep rm g0 g2 := by
  obtain ⟨⟨e, c, p, h, t0, hh, hc01, hco, hlev, hfs, hpr, hmaj, hfile⟩, hnext, hpos, htx⟩ := hi.head hs
  unfold gdxClose at hc
  have e1 : finishWrite z g = .ok g := by unfold finishWrite; rw [hm, if_neg (by decide)]
  rw [e1] at hc
  simp only [Res.bind_ok] at hc
  have e2 : saveIf z g = saveFile z g := by unfold saveIf; rw [if_pos hm]
  rw [e2] at hc
  obtain ⟨g1, hg1, hc⟩ := Res.bind_eq_ok.mp hc
  cases hc
  unfold saveFile at hg1
  rw [if_neg (by omega)] at hg1
  obtain ⟨t, ht, hg1⟩ := Res.bind_eq_ok.mp hg1
  cases hg1
  have hne := tables_ne hz ht
  have hfile' : (Gx.freeAll ((g.put g.nextWrite.toNat t.all).put g.majorPos (indexBytes g.nextWrite t))).file =
    splice (splice g.file g.nextWrite.toNat t.all) g.majorPos (indexBytes g.nextWrite t) := rfl
  rw [hfile'] at hl ⊢
  have hixl := indexBytes_length g.nextWrite t
  have hixne : indexBytes g.nextWrite t ≠ [] := by intro h; rw [h] at hixl; cases hixl
  have hsize : g.nextWrite + t.all.length ≤ 9223372036854775807 := by
    rw [splice_length, if_neg hixne, splice_length, if_neg hne] at hl
    omega
  obtain ⟨t1, ht1⟩ := splice_prefix h t0 g.nextWrite.toNat t.all (by omega)
  rw [← hfile] at ht1
  have hfile2 : splice (splice g.file g.nextWrite.toNat t.all) g.majorPos (indexBytes g.nextWrite t) =
      h ++ (indexBytes g.nextWrite t ++ (splice g.file g.nextWrite.toNat t.all).drop (g.majorPos + 52)) := by
    have hd := splice_drop_at (splice g.file g.nextWrite.toNat t.all) g.majorPos (indexBytes g.nextWrite t) hixne
    obtain ⟨t2, ht2⟩ := splice_prefix h t1 g.majorPos (indexBytes g.nextWrite t) (by omega)
    rw [← ht1] at ht2
    rw [ht2] at hd ⊢
    rw [hmaj, List.drop_left, hixl] at hd
    rw [hd, hmaj]
  have hdrop : ∀ q, g.nextWrite.toNat ≤ q → (splice (splice g.file g.nextWrite.toNat t.all) g.majorPos
      (indexBytes g.nextWrite t)).drop q = (t.all ++ g.file.drop (g.nextWrite.toNat + t.all.length)).drop (q - g.nextWrite.toNat) := by
    intro q hq
    rw [splice_drop_behind _ _ _ _ (by rw [hixl]; omega), ← splice_drop_at _ _ _ hne, List.drop_drop]
    congr 1
    omega
  generalize hF : splice (splice g.file g.nextWrite.toNat t.all) g.majorPos (indexBytes g.nextWrite t) = F at hl hfile2 hdrop ⊢
  obtain ⟨bi, hbi, hri⟩ := rdIndex_indexBytes g.nextWrite t (by omega) hsize
    ((splice g.file g.nextWrite.toNat t.all).drop (g.majorPos + 52))
  rw [hbi, List.append_assoc] at hfile2
  generalize hR : g.file.drop (g.nextWrite.toNat + t.all.length) = R at hdrop
  -- the parts
  have ht' := ht
  unfold wrTables at ht'
  obtain ⟨syms, q0, ht'⟩ := Res.bind_eq_ok.mp ht'
  obtain ⟨ba, q1, ht'⟩ := Res.bind_eq_ok.mp ht'
  obtain ⟨bb, q2, ht'⟩ := Res.bind_eq_ok.mp ht'
  obtain ⟨u, q3, ht'⟩ := Res.bind_eq_ok.mp ht'
  obtain ⟨bc, q4, ht'⟩ := Res.bind_eq_ok.mp ht'
  obtain ⟨ac, q5, ht'⟩ := Res.bind_eq_ok.mp ht'
  obtain ⟨bd, q6, ht'⟩ := Res.bind_eq_ok.mp ht'
  obtain ⟨dm, q7, ht'⟩ := Res.bind_eq_ok.mp ht'
  obtain ⟨be, q8, ht'⟩ := Res.bind_eq_ok.mp ht'
  cases ht'
  replace q0 := need_ok q0
  replace q3 := need_ok q3
  replace q5 := need_ok q5
  replace q7 := need_ok q7
  obtain ⟨tx, q9⟩ := Option.isSome_iff_exists.mp htx.texts
  rw [q9] at q2
  have hall := hsize
  unfold Tables.all at hall hdrop
  simp only [List.length_append] at hall
  simp only [List.append_assoc] at hdrop
  -- places
  have d1 : F.drop g.nextWrite.toNat = z.wr g.comprOut ba ++ _ := (hdrop _ (le_refl _)).trans (by rw [Nat.sub_self]; rfl)
  have d2 : F.drop (g.nextWrite + (z.wr g.comprOut ba).length).toNat = z.wr g.comprOut bb ++ _ := (hdrop _ (by omega)).trans (by
    rw [show (g.nextWrite + (z.wr g.comprOut ba).length).toNat - g.nextWrite.toNat = (z.wr g.comprOut ba).length by omega]
    exact List.drop_left)
  have d3 : F.drop (g.nextWrite + (z.wr g.comprOut ba).length + (z.wr g.comprOut bb).length).toNat = z.wr g.comprOut bc ++ _ :=
    (hdrop _ (by omega)).trans (by
    rw [show (g.nextWrite + (z.wr g.comprOut ba).length + (z.wr g.comprOut bb).length).toNat - g.nextWrite.toNat =
      (z.wr g.comprOut ba).length + (z.wr g.comprOut bb).length by omega]
    rw [← List.drop_drop, List.drop_left]
    exact List.drop_left)
  have d4 : F.drop (g.nextWrite + (z.wr g.comprOut ba).length + (z.wr g.comprOut bb).length + (z.wr g.comprOut bc).length).toNat =
      z.wr g.comprOut bd ++ _ :=
    (hdrop _ (by omega)).trans (by
    rw [show (g.nextWrite + (z.wr g.comprOut ba).length + (z.wr g.comprOut bb).length + (z.wr g.comprOut bc).length).toNat -
      g.nextWrite.toNat = (z.wr g.comprOut ba).length + (z.wr g.comprOut bb).length + (z.wr g.comprOut bc).length by omega]
    rw [← List.drop_drop, ← List.drop_drop, List.drop_left, List.drop_left]
    exact List.drop_left)
  have d5 : F.drop (g.nextWrite + (z.wr g.comprOut ba).length + (z.wr g.comprOut bb).length + (z.wr g.comprOut bc).length +
      (z.wr g.comprOut bd).length).toNat = z.wr g.comprOut be ++ _ :=
    (hdrop _ (by omega)).trans (by
    rw [show (g.nextWrite + (z.wr g.comprOut ba).length + (z.wr g.comprOut bb).length + (z.wr g.comprOut bc).length +
      (z.wr g.comprOut bd).length).toNat - g.nextWrite.toNat = (z.wr g.comprOut ba).length + (z.wr g.comprOut bb).length +
      (z.wr g.comprOut bc).length + (z.wr g.comprOut bd).length by omega]
    rw [← List.drop_drop, ← List.drop_drop, ← List.drop_drop, List.drop_left, List.drop_left, List.drop_left]
    exact List.drop_left)
  -- facts about the tables
  obtain ⟨hsl, hse⟩ := hf.syms syms q0
  have hsy := hi.tab.syms syms q0
  have hsf : ∀ s ∈ syms, SymFits s := by
    intro s hs'
    obtain ⟨n, hn, hn'⟩ := List.mem_iff_getElem.mp hs'
    have := hpos syms q0 s hs'
    exact (hsy.each n s (by rw [← hn']; exact List.getElem?_eq_getElem hn)).fits hsl hn ⟨by omega, by omega⟩ (hse s hs').1 (hse s hs').2
  have hnd : g.nDom = dm.length := by unfold Gx.nDom; rw [q7]; rfl
  have hdl := hf.doms dm q7
  have hsr : ∀ s ∈ syms, ∀ l, s.domStrs = some l → l.length = s.dim.toNat ∧ ∀ d ∈ l, I32 d := by
    intro s hs' l hl'
    obtain ⟨n, hn, hn'⟩ := List.mem_iff_getElem.mp hs'
    have := (hsy.each n s (by rw [← hn']; exact List.getElem?_eq_getElem hn)).dst l hl'
    refine ⟨this.1, fun d hd => ?_⟩
    have h2 := this.2 d hd
    rw [hnd] at h2
    constructor <;> omega
  -- opening
  let ga : Gx := { ({ g0.initErrors with readPtr := none } : Gx) with opened := true, file := F, log := [] }
  obtain ⟨l, o, o1, o2, o3, o4⟩ := openHeader_ok hh hc01 ga _ _ _ hfile2 hri
  let gb : Gx := { ga with verRead := 7, uncompr := decide (c > 0), comprLev := c, fsId := e.audit, producer := p
                           producer2 := [], majorPos := h.length, nextWrite := g.nextWrite }
  have hun : gb.uncompr = g.comprOut := hco.symm
  let ix : Index := ⟨g.nextWrite, g.nextWrite + (z.wr g.comprOut ba).length + (z.wr g.comprOut bb).length,
    g.nextWrite + (z.wr g.comprOut ba).length,
    g.nextWrite + (z.wr g.comprOut ba).length + (z.wr g.comprOut bb).length + (z.wr g.comprOut bc).length, some g.nextWrite,
    g.nextWrite + (z.wr g.comprOut ba).length + (z.wr g.comprOut bb).length + (z.wr g.comprOut bc).length + (z.wr g.comprOut bd).length⟩
  obtain ⟨cu, s1, s1'⟩ := openSyms_ok hz (g := gb) (ix := ix)
    rfl (show 0 ≤ g.nextWrite by omega) q1 (by rw [hun]; exact d1) hsl hsf
  have s2 := openUels_ok hz (g := { gb with names := some (syms.map Sym.stored), acros := some [], filters := some [], cur := cu }) (ix := ix)
    (by show 0 ≤ g.nextWrite + _ + _; omega) q4 (by rw [show Gx.uncompr _ = g.comprOut from hun]; exact d3) rfl (hf.uels u q3)
    (fun s hs' => goodUEL_zfree ((hi.els u q3).good s hs').1)
  obtain ⟨ntx, hn1, hn2⟩ : ∃ ntx, (rm % 2 = 0 → ntx = some (tx.map fun p => (p.1, (0 : Int)))) ∧ (rm % 2 ≠ 0 → ntx = g0.texts) := by
    by_cases hrm : rm % 2 = 0
    · exact ⟨_, fun _ => rfl, fun h => absurd hrm h⟩
    · exact ⟨_, fun h => absurd h hrm, fun _ => rfl⟩
  have s3 : (if rm % 2 = 0 then openTexts z ix { gb with
      names := some (syms.map Sym.stored), acros := some [], filters := some [], cur := cu,
      uel := some { Uel.empty with ents := u.strs.map (·, -1) }, uelOrig := u.ents.length } else .ok ({ gb with
      names := some (syms.map Sym.stored), acros := some [], filters := some [], cur := cu,
      uel := some { Uel.empty with ents := u.strs.map (·, -1) }, uelOrig := u.ents.length }, true)) = .ok ({ gb with
      names := some (syms.map Sym.stored), acros := some [], filters := some [], cur := cu,
      uel := some { Uel.empty with ents := u.strs.map (·, -1) }, uelOrig := u.ents.length, texts := ntx }, true) := by
    by_cases hrm : rm % 2 = 0
    · rw [if_pos hrm, openTexts_ok hz (by show 0 ≤ g.nextWrite + _; omega) q2 (by rw [show Gx.uncompr _ = g.comprOut from hun]; exact d2)
        (hf.texts tx q9) (hi.txt tx q9)]
      rw [hn1 hrm]
    · rw [if_neg hrm, hn2 hrm]
      rfl
  have s4 := openAcros_ok hz (g := { gb with
      names := some (syms.map Sym.stored), acros := some [], filters := some [], cur := cu,
      uel := some { Uel.empty with ents := u.strs.map (·, -1) }, uelOrig := u.ents.length
      texts := ntx }) (ix := ix)
    (by show 0 ≤ g.nextWrite + _ + _ + _; omega) q6 (by rw [show Gx.uncompr _ = g.comprOut from hun]; exact d4) (hf.acros ac q5)
    (fun a ha => ((hi.acr ac q5).each a ha).2.2)
  have s5 := openDoms_ok hz (g := { gb with
      names := some (syms.map Sym.stored), acros := some (ac.map Acr.reopened), filters := some [], cur := cu,
      uel := some { Uel.empty with ents := u.strs.map (·, -1) }, uelOrig := u.ents.length
      texts := ntx, domStrs := some [] }) (ix := ix)
    (by show 0 ≤ g.nextWrite + _ + _ + _ + _; omega) q8 (by rw [show Gx.uncompr _ = g.comprOut from hun]; exact d5) rfl
    hdl (fun s hs' => (ident_zfree (hi.dom dm q7 s hs')).1) hsl (fun s hs' => (hsf s hs').dim.1) hsr
  have st : openTables z ix rm gb = .ok ({ gb with
      names := some (syms.map Sym.reopened), acros := some (ac.map Acr.reopened), filters := some [], cur := cu,
      uel := some { Uel.empty with ents := u.strs.map (·, -1) }, uelOrig := u.ents.length
      texts := ntx, domStrs := some dm }, true) := by
    unfold openTables thenOk
    rw [s1]
    simp only [Res.bind_ok, if_true]
    rw [s2]
    simp only [Res.bind_ok, if_true]
    rw [s3]
    simp only [Res.bind_ok, if_true]
    rw [if_pos (show gb.verRead ≥ 7 from le_refl (7 : Int)), s4]
    simp only [Res.bind_ok, if_true]
    rw [if_pos ⟨show gb.verRead ≥ 7 from le_refl (7 : Int), by show g.nextWrite + _ + _ + _ + _ ≠ 0; omega⟩, s5]
  refine ⟨{ gb with
      names := some (syms.map Sym.reopened), acros := some (ac.map Acr.reopened), filters := some [], cur := cu,
      uel := some { Uel.empty with ents := u.strs.map (·, -1) }, uelOrig := u.ents.length
      texts := ntx, domStrs := some dm
      lastErr := 0, sv := SVTab.default, rsv := SVTab.default, mode := .rInit, stat := .read }, ?_, ?_, ?_⟩
  · unfold openReadXX
    rw [if_neg (by simp [h0])]
    simp only
    unfold rdOk
    have o1' : determineByteOrder false F = some (o, l) := o1
    rw [o1']
    simp only [need, Res.bind_ok]
    rw [if_neg (by simp [o2]), if_neg (by simp [o3])]
    have o4' : openHeader ga l = .ok (gb, some ix) := o4
    rw [o4']
    simp only [Res.bind_ok]
    rw [st]
    simp only [Res.bind_ok]
    rw [if_neg (by decide)]
    rfl
  · exact {
      names := ⟨syms, q0, rfl⟩, uel := ⟨u, q3, rfl, rfl⟩, texts := fun hrm => ⟨tx, q9, hn1 hrm⟩, acros := ⟨ac, q5, rfl⟩, doms := ⟨dm, q7, rfl⟩
      next := rfl, major := hmaj.symm, ver := rfl, fs := hfs.symm, prod := hpr.symm, prod2 := rfl, lev := hlev.symm, unc := hun
      mode := rfl, stat := rfl, opn := rfl, file := rfl, err := ⟨rfl, rfl, rfl⟩, sv := ⟨rfl, rfl⟩, filt := rfl }
  · exact {
      texts := fun hrm => hn2 hrm
      mapText := rfl, dcnt := rfl, acrNaN := rfl, storeDom := rfl, allowBogus := rfl, nextAuto := rfl, readPtr := rfl, modeAft := rfl, append := rfl
      cur := by
        rcases s1' with h | h | h
        · exact Or.inl h
        · exact Or.inr (Or.inl h)
        · exact Or.inr (Or.inr ⟨_, rfl, by rw [List.length_map]; exact h⟩) }

end Gdx
