import Verif.Model.ApiWrite

/-!
The file as a whole: gdxClose (`/repo/src/gxfile.cpp` 534-663), gdxOpenReadXX (1853-2099) and gdxOpenAppend (3439-3456).

Not modelled: the program started by ConvertGDXFile when the environment asks for another format (gdxClose then reports
its result); files written on a machine of the other byte order (undefined here; reading their numbers is the subject of
C21); the I/O errors of the operating system.
-/

namespace Gdx

/-! ### marks (gxfile.cpp:146-154) -/
/-- "_SYMB_" -/
def markSymb : Str := [95, 83, 89, 77, 66, 95]
/-- "_SETT_" -/
def markSett : Str := [95, 83, 69, 84, 84, 95]
/-- "_UEL_" -/
def markUel : Str := [95, 85, 69, 76, 95]
/-- "_ACRO_" -/
def markAcro : Str := [95, 65, 67, 82, 79, 95]
/-- "_DOMS_" -/
def markDoms : Str := [95, 68, 79, 77, 83, 95]
/-- MARK_BOI -/
def markBoi : Int := 19510624

/-! ### gdxClose -/

def boolByte (b : Bool) : UInt8 := if b then 1 else 0

/-- gxfile.cpp:564-568: the domain symbols -/
def wrDomSyms : Option (List Int) → List UInt8
  | none => [0]
  | some l => 1 :: l.flatMap wrInt

/-- gxfile.cpp:570-574: the comments; a comment without terminating 0 cannot be written -/
def wrComments (l : List (Option Str)) : Res (List UInt8) := do
  let bs ← saveAll (fun c => do
    let s ← need c
    wrString s) l
  pure (wrInt l.length ++ bs)

/-- gxfile.cpp:551-575: one symbol -/
def wrSym (s : Sym) : Res (List UInt8) := do
  let n ← wrString s.name
  let e ← wrString s.expl
  let c ← wrComments s.comments
  pure (n ++ (wrInt64 s.pos ++ (wrInt s.dim ++ ([UInt8.ofNat s.typ] ++ (wrInt s.userInfo ++ (wrInt s.dataCount ++
    (wrInt s.errors ++ ([boolByte s.setText] ++ (e ++ ([boolByte s.compr] ++ (wrDomSyms s.domSyms ++ c)))))))))))

/-- count, then the strings (strhash.hpp:386-392 SaveToStream) -/
def wrStrs (l : List Str) : Res (List UInt8) := do
  let bs ← saveAll wrString l
  pure (wrInt l.length ++ bs)

/-- a table between its marks -/
def section' (mark : Str) (bs : List UInt8) : List UInt8 := encStr mark ++ (bs ++ encStr mark)

/-- gxfile.cpp:548-576 -/
def wrSymbs (l : List Sym) : Res (List UInt8) := do
  let bs ← saveAll wrSym l
  pure (section' markSymb (wrInt l.length ++ bs))

/-- gxfile.cpp:578-586; without a list of texts the table is empty -/
def wrTexts (l : Option (List (Str × Int))) : Res (List UInt8) := do
  let bs ← wrStrs ((l.getD []).map Prod.fst)
  pure (section' markSett bs)

/-- gxfile.cpp:588-593 -/
def wrUels (u : Uel) : Res (List UInt8) := do
  let bs ← wrStrs u.strs
  pure (section' markUel bs)

/-- gxfile.cpp:595-600 -/
def wrAcros (l : List Acr) : Res (List UInt8) := do
  let bs ← acrSave l
  pure (section' markAcro bs)

/-- gxfile.cpp:609-619: the relaxed domains of the symbols, `n` = number of the first one -/
def wrRelaxed : Int → List Sym → List UInt8
  | _, [] => wrInt (-1)
  | n, s :: ss =>
    (match s.domStrs with
      | some l => wrInt n ++ l.flatMap wrInt
      | none => []) ++ wrRelaxed (n + 1) ss

/-- gxfile.cpp:602-620 -/
def wrDoms (doms : List Str) (l : List Sym) : Res (List UInt8) := do
  let bs ← wrStrs doms
  pure (encStr markDoms ++ (bs ++ (encStr markDoms ++ (wrRelaxed 1 l ++ encStr markDoms))))

/-- The five tables as they are in the file -/
structure Tables where
  symb : List UInt8
  text : List UInt8
  uels : List UInt8
  acro : List UInt8
  doms : List UInt8
  deriving DecidableEq, Repr

def Tables.all (t : Tables) : List UInt8 := t.symb ++ (t.text ++ (t.uels ++ (t.acro ++ t.doms)))

/-- gxfile.cpp:545-620 -/
def wrTables (z : Cz) (g : Gx) : Res Tables := do
  let syms ← need g.names
  let a ← wrSymbs syms
  let b ← wrTexts g.texts
  let u ← need g.uel
  let c ← wrUels u
  let acros ← need g.acros
  let d ← wrAcros acros
  let doms ← need g.domStrs
  let e ← wrDoms doms syms
  let w := z.wr g.comprOut
  pure ⟨w a, w b, w c, w d, w e⟩

/-- the index, gxfile.cpp:622-628: SymbPos, UELPos, SetTextPos, AcronymPos, NextWritePosition, DomStrPos -/
def indexBytes (p : Int) (t : Tables) : List UInt8 :=
  wrInt markBoi ++ (wrInt64 p ++ (wrInt64 (p + t.symb.length + t.text.length) ++ (wrInt64 (p + t.symb.length) ++
    (wrInt64 (p + t.symb.length + t.text.length + t.uels.length) ++ (wrInt64 p ++
      wrInt64 (p + t.symb.length + t.text.length + t.uels.length + t.acro.length))))))

/-- gxfile.cpp:542-629: write the tables, then the index -/
def saveFile (z : Cz) (g : Gx) : Res Gx := do
  if g.nextWrite < 0 then .ub else do
  let t ← wrTables z g
  pure ((g.put g.nextWrite.toNat t.all).put g.majorPos (indexBytes g.nextWrite t))

/-- gxfile.cpp:633-656: everything is freed -/
def Gx.freeAll (g : Gx) : Gx :=
  { g.dropCur with
    names := none, opened := false, texts := none, uel := none, sort := none, domStrs := none, errList := none
    filters := none, acros := none, mapText := none, mode := .notOpen, stat := .notOpen }

/-- gxfile.cpp:538-541: a symbol that is being written is finished -/
def finishWrite (z : Cz) (g : Gx) : Res Gx :=
  if g.mode = .wRaw ∨ g.mode = .wMap ∨ g.mode = .wStr then do
    let r ← dataWriteDone z g
    pure r.1
  else .ok g

/-- gxfile.cpp:542-629: only in mode fw_init -/
def saveIf (z : Cz) (g : Gx) : Res Gx := if g.mode = .wInit then saveFile z g else .ok g

/-- gxfile.cpp:534-663 gdxClose -/
def gdxClose (z : Cz) (g : Gx) : Res (Gx × Int) := do
  let g ← finishWrite z g
  let g ← saveIf z g
  pure (g.freeAll, if g.opened then 0 else 1)

/-! ### readers for strings -/

/-- gmsstrm.cpp:347-358 ReadString: at the end of the file "", when bytes are missing they are 0 -/
def rdStrE : List UInt8 → Str × List UInt8
  | [] => ([], [])
  | n :: r => (r.take n.toNat ++ List.replicate (n.toNat - r.length) 0, r.drop n.toNat)

/-- gmsstrm.cpp:360-370 ReadSString, then used as a C string: cut at a byte 0 -/
def rdCStr : Rd Str := fun l => do
  let (s, r) ← rdString l
  some (s.takeWhile (· ≠ 0), r)

/-- a value of a reader; reading past the end is undefined -/
def rdOk {α : Type} (rd : Rd α) (l : List UInt8) : Res (α × List UInt8) := need (rd l)

/-! ### gdxOpenReadXX -/

/-- gxfile.cpp:1922-1942: the positions of the tables -/
structure Index where
  symb : Int
  uels : Int
  text : Int
  acro : Int := 0
  next : Option Int := none
  doms : Int := 0
  deriving DecidableEq, Repr

def rdIndex (v : Int) : Rd Index := fun l =>
  if v ≤ 5 then do
    let (a, l) ← rdInt l
    let (b, l) ← rdInt l
    let (c, l) ← rdInt l
    let (d, l) ← rdInt l
    some ({ symb := a, uels := b, text := c, next := some d }, l)
  else do
    let (a, l) ← rdInt64 l
    let (b, l) ← rdInt64 l
    let (c, l) ← rdInt64 l
    if v ≥ 7 then do
      let (d, l) ← rdInt64 l
      let (e, l) ← rdInt64 l
      let (f, l) ← rdInt64 l
      some ({ symb := a, uels := b, text := c, acro := d, next := some e, doms := f }, l)
    else some ({ symb := a, uels := b, text := c }, l)

/-- gxfile.cpp:1912-1913: the compression level, missing in old files -/
def rdCompr (v : Int) (l : List UInt8) : Res (Int × List UInt8) := if v ≤ 5 then .ok (0, l) else rdOk rdInt l

/-- gxfile.cpp:1900-1942: the part of the file behind the byte order marks up to the index mark; `none` = refused -/
def openHeader (g : Gx) (l : List UInt8) : Res (Gx × Option Index) := do
  let (b, l) ← rdOk rdByte l
  if b ≠ 123 then pure (g.raise Err.openFileHeader, none) else do
  let (s, l) := rdStrE l
  if sameText false s headerId = false then pure (g.raise Err.openFileMarker, none) else do
  let (v, l) ← rdOk rdInt l
  let g := { g with verRead := v }
  if v > 7 then pure (g.raise Err.openFileVersion, none) else do
  let (c, l) ← rdCompr v l
  let (fs, l) := rdStrE l
  let (p, l) := rdStrE l
  let g := { g with uncompr := decide (c > 0), comprLev := c, fsId := fs, producer := p, producer2 := []
                    majorPos := g.file.length - l.length }
  let (m, l) ← rdOk rdInt l
  if m ≠ markBoi then pure (g.raise Err.openBoi, none) else do
  let (ix, _) ← rdOk (rdIndex v) l
  pure ({ g with nextWrite := ix.next.getD g.nextWrite }, some ix)

/-- the bytes from a position of the file on, decompressed if the file is compressed -/
def Gx.from (z : Cz) (g : Gx) (pos : Int) : Res (List UInt8) :=
  if pos < 0 then .ub else .ok (z.rd g.uncompr (g.file.drop pos.toNat))

/-- gxfile.cpp:1974-1994: domain symbols and comments of a symbol -/
def rdDomSyms (dim : Int) : Rd (Option (List Int)) := fun l => do
  let (b, l) ← rdByte l
  if b = 0 then some (none, l)
  else if dim < 0 then none
  else do
    let (d, l) ← rdMany rdInt dim.toNat l
    some (some d, l)

def rdComments : Rd (List (Option Str)) := fun l => do
  let (n, l) ← rdInt l
  let (c, l) ← rdMany rdCStr n.toNat l
  some (c.map some, l)

/-! fields that depend on the version of the file -/
def rdPos (v : Int) : Rd Int := if v ≤ 5 then rdInt else rdInt64
def rdCo (v : Int) : Rd UInt8 := if v > 5 then rdByte else fun l => some (0, l)
def rdDs (v dim : Int) : Rd (Option (List Int)) := if v ≥ 7 then rdDomSyms dim else fun l => some (none, l)
def rdCm (v : Int) : Rd (List (Option Str)) := if v ≥ 7 then rdComments else fun l => some ([], l)

/-- gxfile.cpp:1956-1998: one symbol (`v` = version of the file). A negative dimension with domains is undefined
    (std::make_unique throws). -/
def rdSym (v : Int) : Rd Sym := fun l => do
  let (name, l) ← rdCStr l
  let (pos, l) ← rdPos v l
  let (dim, l) ← rdInt l
  let (typ, l) ← rdByte l
  let (ui, l) ← rdInt l
  let (dc, l) ← rdInt l
  let (er, l) ← rdInt l
  let (st, l) ← rdByte l
  let (ex, l) ← rdCStr l
  let (co, l) ← rdCo v l
  let (ds, l) ← rdDs v dim l
  let (cm, l) ← rdCm v l
  some ({ name := name, pos := pos, dim := dim, typ := typ.toNat, userInfo := ui, dataCount := dc, errors := er,
          setText := decide (st ≠ 0), expl := ex, compr := decide (co ≠ 0), domSyms := ds, comments := cm }, l)

/-- gxfile.cpp:1944-1999: the symbols. `names` is assigned after the first mark has been seen. -/
def openSyms (z : Cz) (ix : Index) (g : Gx) : Res (Gx × Bool) := do
  let l ← g.from z ix.symb
  let (m, l) := rdStrE l
  if m ≠ markSymb then pure (g.raise Err.openSymbolMarker1, false) else do
  let (n, l) ← rdOk rdInt l
  let (syms, l) ← rdOk (rdMany (rdSym g.verRead) n.toNat) l
  let g := { g.dropCur with names := some syms, acros := some [], filters := some [] }
  let g := if syms = [] then g else { g with cur := .sym syms.length }
  let (m, _) := rdStrE l
  if m ≠ markSymb then pure (g.raise Err.openSymbolMarker2, false) else pure (g, true)

/-- gxfile.cpp:2014: "2001" at position 15 of the file system id: one element less -/
def is2001 (fs : Str) : Bool := (fs.drop 15).take 4 == [50, 48, 48, 49]

/-- gxfile.cpp:2001-2025: the elements -/
def openUels (z : Cz) (ix : Index) (g : Gx) : Res (Gx × Bool) := do
  let l ← g.from z ix.uels
  let g := { g with uel := some Uel.empty }
  let (m, l) := rdStrE l
  if m ≠ markUel then pure (g.raise Err.openUelMarker1, false) else do
  let (n, l) ← rdOk rdInt l
  let n := if is2001 g.fsId then n - 1 else n
  let (strs, l) ← rdOk (rdMany rdCStr n.toNat) l
  let g := { g with uel := some { Uel.empty with ents := strs.map fun s => (s, -1) }, uelOrig := strs.length }
  let (m, _) := rdStrE l
  if m ≠ markUel then pure (g.raise Err.openUelMarker2, false) else pure (g, true)

/-- gxfile.cpp:2040-2057: the texts are added one by one; a text that is already there gets an entry in MapSetText.
    `n` = number of the text, `cnt` = number of texts of the file. An old array that is too small is overrun. -/
def addTexts (cnt : Nat) : Nat → List Str → List (Str × Int) → Option (List Int) → Res (List (Str × Int) × Option (List Int))
  | _, [], l, m => .ok (l, m)
  | n, s :: ss, l, m =>
    let r : List (Str × Int) × Nat := match lookup true s (l.map Prod.fst) with
      | some k => (l, k)
      | none => (l ++ [(s, 0)], l.length)
    if r.2 = n then addTexts cnt (n + 1) ss r.1 m
    else
      let m' := m.getD ((List.range n).map (fun (d : Nat) => (d : Int)) ++ List.replicate (cnt - n) 0)
      if n < m'.length then addTexts cnt (n + 1) ss r.1 (some (m'.set n r.2)) else .ub

/-- gxfile.cpp:2027-2059: the texts -/
def openTexts (z : Cz) (ix : Index) (g : Gx) : Res (Gx × Bool) := do
  let l ← g.from z ix.text
  let g := { g with texts := some [] }
  let (m, l) := rdStrE l
  if m ≠ markSett then pure (g.raise Err.openTextMarker1, false) else do
  let (n, l) ← rdOk rdInt l
  let (strs, l) ← rdOk (rdMany rdCStr n.toNat) l
  let (t, mp) ← addTexts n.toNat 0 strs [] g.mapText
  let g := { g with texts := some t, mapText := mp }
  let (m, _) := rdStrE l
  if m ≠ markSett then pure (g.raise Err.openTextMarker2, false) else pure (g, true)

/-- gxfile.cpp:2061-2069: the acronyms -/
def openAcros (z : Cz) (ix : Index) (g : Gx) : Res (Gx × Bool) := do
  let l ← g.from z ix.acro
  let (m, l) := rdStrE l
  if m ≠ markAcro then pure (g.raise Err.openAcroMarker1, false) else do
  let (a, l) ← rdOk rdAcros l
  let g := { g with acros := some a }
  let (m, _) := rdStrE l
  if m ≠ markAcro then pure (g.raise Err.openAcroMarker2, false) else pure (g, true)

/-- gxfile.cpp:2081-2089: the relaxed domains; `fuel` bounds the number of entries by the number of bytes -/
def rdRelaxed : Nat → List Sym → List UInt8 → Res (List Sym × List UInt8)
  | 0, _, _ => .ub
  | fuel + 1, syms, l => do
    let (n, l) ← rdOk rdInt l
    if n ≤ 0 then pure (syms, l) else do
    let s ← at1 syms n
    if s.dim < 0 then .ub else do
    let (d, l) ← rdOk (rdMany rdInt s.dim.toNat) l
    rdRelaxed fuel (syms.modify (n.toNat - 1) fun s => { s with domStrs := some d }) l

/-- gxfile.cpp:2071-2091: the domain strings -/
def openDoms (z : Cz) (ix : Index) (g : Gx) : Res (Gx × Bool) := do
  let l ← g.from z ix.doms
  let (m, l) := rdStrE l
  if m ≠ markDoms then pure (g.raise Err.openDomsMarker1, false) else do
  let (n, l) ← rdOk rdInt l
  let (strs, l) ← rdOk (rdMany rdCStr n.toNat) l
  let g := { g with domStrs := some strs }
  let (m, l) := rdStrE l
  if m ≠ markDoms then pure (g.raise Err.openDomsMarker2, false) else do
  let syms ← need g.names
  let (syms, l) ← rdRelaxed l.length syms l
  let g := { g with names := some syms }
  let (m, _) := rdStrE l
  if m ≠ markDoms then pure (g.raise Err.openDomsMarker3, false) else pure (g, true)

/-- go on after success -/
def thenOk (r : Res (Gx × Bool)) (f : Gx → Res (Gx × Bool)) : Res (Gx × Bool) := do
  let (g, ok) ← r
  if ok then f g else pure (g, false)

/-- gxfile.cpp:1944-2091: all tables; `readMode` odd: without texts -/
def openTables (z : Cz) (ix : Index) (readMode : Int) (g : Gx) : Res (Gx × Bool) :=
  thenOk (openSyms z ix g) fun g =>
  thenOk (openUels z ix g) fun g =>
  thenOk (if readMode % 2 = 0 then openTexts z ix g else .ok (g, true)) fun g =>
  thenOk (if g.verRead ≥ 7 then openAcros z ix g else .ok (g, true)) fun g =>
  let g := { g with domStrs := some [] }
  if g.verRead ≥ 7 ∧ ix.doms ≠ 0 then openDoms z ix g else .ok (g, true)

/-- gxfile.cpp:1873-1877 FileErrorNr -/
def openFail (g : Gx) : Gx × (Bool × Int) := ({ g with opened := false }, (false, g.lastErr))
/-- gxfile.cpp:1879-1882 FileNoGood -/
def openNoGood (g : Gx) (e : Int) : Gx × (Bool × Int) := openFail { g with lastErr := e }

/-- what opening finds: no name given, an error of the operating system, or the content of the file -/
inductive Disk where
  | noName
  | ioErr (e : Int)
  | content (f : List UInt8)
  deriving DecidableEq, Repr

/-- ERR_BADDATAFORMAT -/
def errBadDataFormat : Int := -100041

/-- gxfile.cpp:1853-2099 gdxOpenReadXX: success and ErrNr -/
def openReadXX (z : Cz) (g : Gx) (d : Disk) (readMode : Int) : Res (Gx × (Bool × Int)) := do
  if g.mode ≠ .notOpen then pure (g, (false, Err.fileAlreadyOpen)) else do
  let g := { g.initErrors with readPtr := none }
  match d with
  | .noName => pure (openNoGood g Err.noFile)
  | .ioErr e => pure (openNoGood g e)
  | .content f => do
    let g := { g with opened := true, file := f, log := [] }
    let (o, l) ← rdOk (determineByteOrder false) f
    if goodByteOrder o ≠ 0 then pure (openNoGood g errBadDataFormat)
    else if o ≠ ⟨0, 0, 0⟩ then .ub else do
    match ← openHeader g l with
    | (g, none) => pure (openFail g)
    | (g, some ix) => do
      let (g, ok) ← openTables z ix readMode g
      if ok = false then pure (openFail g)
      else pure ({ g with lastErr := 0, sv := SVTab.default, rsv := SVTab.default, mode := .rInit, stat := .read }, (true, 0))

/-- gdxOpenRead, gxfile.cpp:1720-1723 -/
def openRead (z : Cz) (g : Gx) (d : Disk) : Res (Gx × (Bool × Int)) := openReadXX z g d 0

/-- gxfile.cpp:3439-3456 gdxOpenAppend -/
def openAppend (z : Cz) (g : Gx) (d : Disk) (producer : Str) : Res (Gx × (Bool × Int)) := do
  let g := { g with producer2 := producer, appendActive := true }
  let (g, r) ← openReadXX z g d 0
  if r.1 = false then pure (g, r)
  else if g.verRead < 7 then do
    let (g, _) ← gdxClose z (g.raise Err.fileTooOldForAppend)
    pure (g, (false, 0))
  else pure ({ g with mode := .wInit, stat := .write, comprOut := g.uncompr }, r)

end Gdx
