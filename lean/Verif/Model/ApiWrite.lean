import Verif.Model.State
import Verif.Model.Ieee
import Verif.Model.ByteOrder

/-!
Writing: `/repo/src/gxfile.cpp` gdxOpenWriteEx 398-461, PrepareSymbolWrite 726-789, the data writers 463-532, 2221-2251,
2719-2758, DoWrite 1234-1380 with InitDoWrite 1170-1185 and the error list 1514-1554, gdxAddAlias 2101-2139,
gdxAddSetText 2141-2153, gdxSymbolSetDomain(X) 2458-2584, comments 3530-3548, UEL registration 2593-2645, 2760-2786,
gdxRenameUEL 2677-2698.

Every function returns the new state and the result of the call. Arrays passed by the user have exactly the required length
(a wrong length is undefined).
-/

namespace Gdx

/-! ### opening for writing -/

/-- what depends on the build of the library: the part of auditLine (gxfile.cpp:131) behind the fixed text -/
structure Env where
  auditRest : Str

/-- "GDX Library C++ V7 (AUDIT) " -/
def auditHead : Str := [71, 68, 88, 32, 76, 105, 98, 114, 97, 114, 121, 32, 67, 43, 43, 32, 86, 55, 32, 40, 65, 85, 68, 73,
  84, 41, 32]
def Env.audit (e : Env) : Str := auditHead ++ e.auditRest

/-- "GAMSGDX" -/
def headerId : Str := [71, 65, 77, 83, 71, 68, 88]

/-- gxfile.cpp:437-449: everything in front of the index positions -/
def fileHeader (e : Env) (compr : Int) (producer : Str) : Res (List UInt8) := do
  let a ← wrString e.audit
  let p ← wrString producer
  pure (orderHeader false ++ [123] ++ encStr headerId ++ wrInt 7 ++ wrInt compr ++ a ++ p)

/-- ten empty index positions, gxfile.cpp:450 -/
def emptyIndex : List UInt8 := (List.replicate 10 (wrInt64 0)).flatten

/-- gxfile.cpp:398-461 gdxOpenWriteEx. `nameEmpty`: the file name is ""; `ioErr`: result of creating the file. Result:
    success and ErrNr. The members that are not assigned keep their values. -/
def openWriteEx (e : Env) (g : Gx) (nameEmpty : Bool) (ioErr : Int) (producer : Str) (compr : Int) :
    Res (Gx × (Bool × Int)) := do
  if g.mode ≠ .notOpen then pure (g, (false, Err.fileAlreadyOpen))
  else if nameEmpty then pure ({ g with lastErr := Err.noFile }, (false, Err.noFile))
  else if ioErr ≠ 0 then pure ({ g with opened := false, lastErr := ioErr }, (false, ioErr))
  else do
    let h ← fileHeader e (compr % 2) producer
    let g := { g.dropCur with
      opened := true, file := [], log := []
      comprLev := compr % 2, comprOut := decide (compr % 2 > 0), readPtr := none
      names := some [], uel := some Uel.empty, acros := some [], filters := some []
      verRead := 7, fsId := e.audit, producer := producer, producer2 := []
      majorPos := h.length
      texts := some [([], 0)]
      sv := SVTab.default, rsv := SVTab.default
      nextWrite := h.length + 80
      mode := .wInit, stat := .write, domStrs := some [] }
    pure ((g.initErrors).put 0 (h ++ emptyIndex), (true, 0))

/-! ### symbols -/

/-- gxfile.cpp:810-815 IsGoodNewSymbol -/
def isGoodNewSymbol (g : Gx) (syms : List Sym) (acros : List Acr) (s : Str) : Gx × Bool :=
  if symIndex syms s ≥ 1 then (g.raise Err.duplicateSymbol, false)
  else if (acrFindName acros s).isSome then (g.raise Err.duplicateSymbol, false)
  else if isGoodIdent s then (g, true)
  else (g.raise Err.badIdentFormat, false)

/-- "String overflow: " -/
def strOverflow : Str := [83, 116, 114, 105, 110, 103, 32, 111, 118, 101, 114, 102, 108, 111, 119, 58, 32]

/-- gxfile.cpp:719-724 assignExplanatoryText -/
def assignExpl (t : Str) : Str :=
  if t.length < ssSize then t else strOverflow ++ t.take (ssSize - 21) ++ [46, 46, 46]

/-- gxfile.cpp:726-789 PrepareSymbolWrite -/
def prepareWrite (g : Gx) (name text : Str) (dim typ ui : Int) : Res (Gx × Bool) := do
  let g := { g with cur := .none, errList := none, sort := none }
  let (g, ok) := g.chk [.wInit]
  if ok = false then pure (g, false) else do
  let syms ← need g.names
  let acros ← need g.acros
  let (g, ok) := isGoodNewSymbol g syms acros name
  if ok = false then pure (g, false)
  else if ¬ (0 ≤ dim ∧ dim ≤ maxDim) then pure (g.raise Err.badDimension, false)
  else if ¬ (0 ≤ typ ∧ typ ≤ 3) then pure (g.raise Err.badDataType, false)
  else
    let sy : Sym := { name := name, dim := dim, typ := typ.toNat, userInfo := ui, expl := makeGoodExplText (assignExpl text),
                      compr := g.comprOut && decide (dim > 0),
                      bitmap := if typ = 0 ∧ dim = 1 ∧ g.storeDom = true then some BitArr.empty else none }
    pure ({ g with
      names := some (syms ++ [sy]), cur := .sym (syms.length + 1), curDim := dim, dataSize := dataTypSize typ.toNat
      last := List.replicate dim.toNat indexInitial
      bounds := List.replicate dim.toNat (intMax, 0)
      wrBits := List.replicate dim.toNat none }, true)

/-- gxfile.cpp:1170-1185 InitDoWrite. The bounds are C++ ints: other numbers are outside of the model. -/
def initDoWrite (g : Gx) (nrRecs : Int) : Res Gx := do
  if g.nextWrite < 0 ∨ ¬ (∀ b ∈ g.bounds, I32 b.1 ∧ I32 b.2) ∨ ¬ I32 nrRecs then .ub else do
  let g ← g.modCur fun s => { s with pos := g.nextWrite }
  pure { g with dataCount := 0, last := List.replicate g.nd indexInitial, blk := encBlockHeader g.nd nrRecs g.bounds }

/-! ### error list -/

/-- gxfile.cpp:1547-1554 AddToErrorList -/
def addErr (g : Gx) (key : List Int) (vals : List Dbl) : Gx :=
  match g.errList with
  | none => { g with errList := some [(key, vals)] }
  | some l => if l.length ≥ 11 then g else { g with errList := some (l ++ [(key, vals)]) }

/-- gxfile.cpp:1523-1544: is there a marked (negative) position that no stored record marks in the same way? -/
def domFresh (l : List (List Int × List Dbl)) (key : List Int) : Bool :=
  (List.range key.length).any fun d =>
    match key[d]? with
    | some k => decide (k < 0) && !(l.any fun r => r.1[d]? == some k)
    | none => false

/-- gxfile.cpp:1514-1545 AddToErrorListDomErrs -/
def addErrDom (g : Gx) (key : List Int) (vals : List Dbl) : Gx :=
  let l := g.errList.getD []
  if l.length ≥ 11 then g
  else if domFresh l key then { g with errList := some (l ++ [(key, vals)]) }
  else { g with errList := some l }

/-! ### DoWrite -/

/-- gxfile.cpp:1251-1266: for every index position, is the element outside of the domain set? -/
def domBad (syms : List Sym) : List (Option Nat) → List Int → Res (List Bool)
  | _, [] => .ok []
  | [], _ :: ks => do
    let r ← domBad syms [] ks
    pure (false :: r)
  | none :: ws, _ :: ks => do
    let r ← domBad syms ws ks
    pure (false :: r)
  | some m :: ws, k :: ks => do
    let s ← at1 syms m
    let b ← need s.bitmap
    let r ← domBad syms ws ks
    pure ((!b.get k) :: r)

/-- gxfile.cpp:1361-1366: CheckEntry for the stored doubles that are acronyms -/
def checkAcros : List Acr → List SVal → Res (List Acr)
  | l, [] => .ok l
  | l, .code _ :: vs => checkAcros l vs
  | l, .num d :: vs =>
    if geAcr d then do
      let n ← acrDiv d
      checkAcros (acrCheck l n) vs
    else checkAcros l vs

/-- `x != 0.0` -/
def nonZero (x : Dbl) : Bool := x != Dbl.zero && x != Dbl.negZero

/-- gxfile.cpp:1371-1379: set text flag and bit map of the current symbol -/
def noteElem (key : List Int) (vals : List Dbl) (s : Sym) : Res Sym :=
  if s.typ = dtSet ∨ s.typ = dtAlias then do
    let x ← at0 vals 0
    let s := if nonZero x then { s with setText := true } else s
    match key, s.bitmap with
    | [k], some b => do
      let b ← b.set k true
      pure { s with bitmap := some b }
    | _, _ => pure s
  else pure s

/-- gxfile.cpp:1325-1379: DoWrite after the key has been accepted (`bs` = its bytes) -/
def acceptRec (g : Gx) (key : List Int) (vals : List Dbl) (bs : List UInt8) : Res (Gx × Bool) := do
  if g.dataCount ≥ intMax then .ub else do
  let sv := vals.map (storeVal g.sv)
  let acros ← need g.acros
  let acros ← checkAcros acros sv
  let s ← g.curSym
  let s ← noteElem key vals s
  let g := { g with blk := g.blk ++ bs ++ encSVals sv, last := key, dataCount := g.dataCount + 1, acros := some acros }
  let g ← g.modCur fun _ => s
  pure (g, true)

/-- gxfile.cpp:1234-1380 DoWrite. (`-AElements[D]` for the smallest int is not treated as undefined.) After an accepted
    record LastElem equals the key, see `Proofs/Enc`. The indices are C++ ints: other numbers are outside of the model. -/
def doWrite (g : Gx) (key : List Int) (vals : List Dbl) : Res (Gx × Bool) := do
  if key.length ≠ g.nd ∨ vals.length ≠ g.dataSize ∨ ¬ (∀ k ∈ key, I32 k) then .ub else do
  let syms ← need g.names
  let bad ← domBad syms g.wrBits key
  if bad.any id then
    pure (addErrDom (g.raise Err.domainViolation) (List.zipWith (fun b k => if b then -k else k) bad key) vals, false)
  else do
    match ← encKey g.nd g.nd (g.bounds.map posDesc) g.last g.dataCount.toNat key with
    | .dup => pure (addErr (g.raise Err.dataDuplicate) key vals, false)
    | .unsorted => pure (addErr (g.raise Err.rawNotSorted) key vals, false)
    | .put bs last => acceptRec g last vals bs

def doWrites : Gx → List (LItem (List Dbl)) → Res Gx
  | g, [] => .ok g
  | g, r :: rs => do
    let (g, _) ← doWrite g r.key r.val
    doWrites g rs

/-! ### the data writers -/

/-- gxfile.cpp:2229-2239 gdxDataWriteRawStart -/
def dataWriteRawStart (g : Gx) (name text : Str) (dim typ ui : Int) : Res (Gx × Bool) := do
  let (g, ok) ← prepareWrite g name text dim typ ui
  if ok = false then pure (g, false) else do
  let g ← initDoWrite { g with bounds := List.replicate g.nd (0, intMax) } (-1)
  pure ({ g with mode := .wDomRaw }, true)

/-- gxfile.cpp:2241-2251 gdxDataWriteRawStartKeyBounds -/
def dataWriteRawStartKeyBounds (g : Gx) (name text : Str) (dim typ ui : Int) (bs : List (Int × Int)) : Res (Gx × Bool) := do
  let (g, ok) ← prepareWrite g name text dim typ ui
  if ok = false then pure (g, false)
  else if bs.length ≠ g.nd then .ub else do
  let g ← initDoWrite { g with bounds := bs } (-1)
  pure ({ g with mode := .wDomRaw }, true)

/-- gxfile.cpp:2221-2227 gdxDataWriteRaw -/
def dataWriteRaw (g : Gx) (key : List Int) (vals : List Dbl) : Res (Gx × Bool) := do
  let g := if g.mode = .wDomRaw then { g with mode := .wRaw } else g
  let (g, ok) := g.chk [.wRaw]
  if ok = false then pure (g, false) else doWrite g key vals

/-- gxfile.cpp:2719-2725 gdxDataWriteMapStart -/
def dataWriteMapStart (g : Gx) (name text : Str) (dim typ ui : Int) : Res (Gx × Bool) := do
  let (g, ok) ← prepareWrite g name text dim typ ui
  if ok = false then pure (g, false)
  else pure ({ g with sort := some LData.empty, mode := .wDomMap }, true)

/-- new bounds of one position, gxfile.cpp:2753-2754 -/
def widen (b : Int × Int) (k : Int) : Int × Int := (if k < b.1 then k else b.1, if k > b.2 then k else b.2)

/-- SortList->AddItem. The indices are C++ ints: other numbers are outside of the model. -/
def sortAdd (g : Gx) (key : List Int) (vals : List Dbl) : Res Gx := do
  let s ← need g.sort
  if vals.length ≠ g.dataSize ∨ key.length ≠ g.nd ∨ ¬ (∀ k ∈ key, I32 k) then .ub else do
  let s ← s.add { key := key, val := vals }
  pure { g with sort := some s }

/-- gxfile.cpp:2744-2755: map the user's numbers, position by position; the bounds change up to the bad position. Result:
    the mapped key, or `none` -/
def mapKey (u : Uel) : List Int → List (Int × Int) → List (Int × Int) × Option (List Int)
  | [], bs => (bs, some [])
  | k :: ks, bs =>
    if u.usr.get k < 0 then (bs, none)
    else
      let r := mapKey u ks bs.tail
      ((bs.take 1).map (fun b => widen b (u.usr.get k)) ++ r.1, r.2.map (u.usr.get k :: ·))

/-- gxfile.cpp:2727-2758 gdxDataWriteMap -/
def dataWriteMap (g : Gx) (key : List Int) (vals : List Dbl) : Res (Gx × Bool) := do
  let g := if g.mode = .wDomMap then { g with mode := .wMap } else g
  let (g, ok) := g.chk [.wMap]
  if ok = false then pure (g, false)
  else if key.length ≠ g.nd then .ub else do
  let u ← need g.uel
  let r := mapKey u key g.bounds
  let g := { g with bounds := r.1 }
  match r.2 with
  | none => pure (g.raise Err.badElementIndex, false)
  | some k => do
    let g ← sortAdd g k vals
    pure (g, true)

/-- gxfile.cpp:463-471 gdxDataWriteStrStart -/
def dataWriteStrStart (g : Gx) (name text : Str) (dim typ ui : Int) : Res (Gx × Bool) := do
  let (g, ok) ← prepareWrite g name text dim typ ui
  if ok = false then pure (g, false)
  else pure ({ g with lastStr := List.replicate g.nd none, sort := some LData.empty, mode := .wDomStr }, true)

/-- One index position of gdxDataWriteStr: cached string, last element, bounds -/
structure StrPos where
  cache : Option Str
  last : Int
  bnd : Int × Int
  deriving DecidableEq, Repr

/-- gxfile.cpp:488-505: one position; `none` = ERR_BADUELSTR -/
def strPos (u : Uel) (p : StrPos) (s : Str) : Option (Uel × StrPos) :=
  if p.cache = some s then some (u, p)
  else
    let done (u : Uel) (kd : Int) : Uel × StrPos :=
      (u, { cache := if s.length < 64 then some s else p.cache, last := kd, bnd := widen p.bnd kd })
    if u.indexOf s = -1 then
      if goodUEL s then
        let (u, n) := u.addObject s
        some (done u n)
      else none
    else some (done u (u.indexOf s))

/-- gxfile.cpp:485-507: all positions; the flag tells whether all were accepted -/
def strKey (u : Uel) : List StrPos → List Str → Res (Uel × List StrPos × Bool)
  | p :: ps, k :: ks => do
    let s ← trimR k
    match strPos u p s with
    | none => pure (u, p :: ps, false)
    | some (u, p) => do
      let (u, ps, ok) ← strKey u ps ks
      pure (u, p :: ps, ok)
  | ps, _ => .ok (u, ps, true)

/-- the positions of the state -/
def Gx.strPoss (g : Gx) : List StrPos :=
  List.zipWith (fun (c : Option Str × Int) b => ⟨c.1, c.2, b⟩) (g.lastStr.zip g.last) g.bounds

/-- gxfile.cpp:473-507 gdxDataWriteStr -/
def dataWriteStr (g : Gx) (key : List Str) (vals : List Dbl) : Res (Gx × Bool) := do
  let g := if g.mode = .wDomStr then { g with mode := .wStr } else g
  let (g, ok) := g.chk [.wStr]
  if ok = false then pure (g, false)
  else if key.length ≠ g.nd then .ub else do
  let u ← need g.uel
  let (u, ps, ok) ← strKey u g.strPoss key
  let g := { g with uel := some u, lastStr := ps.map StrPos.cache, last := ps.map StrPos.last, bounds := ps.map StrPos.bnd }
  if ok = false then pure (g.raise Err.badUelStr, false)
  else do
    let g ← sortAdd g g.last vals
    pure (g, true)

/-- gxfile.cpp:524-531: end mark, bookkeeping of the symbol, flush -/
def finishBlock (z : Cz) (g : Gx) : Res Gx := do
  let s ← g.curSym
  if g.nextWrite < 0 then .ub else do
  let bs := z.wr s.compr (g.blk ++ [255])
  let g ← g.modCur fun s => { s with dataCount := g.dataCount, errors := g.errCnt }
  let g := g.put g.nextWrite.toNat bs
  pure { g with nextWrite := g.nextWrite + bs.length, errCnt := 0, mode := .wInit, cur := .none, blk := [] }

/-- gxfile.cpp:509-532 gdxDataWriteDone -/
def dataWriteDone (z : Cz) (g : Gx) : Res (Gx × Bool) := do
  let (g, ok) := g.chk [.wRaw, .wMap, .wStr, .wDomRaw, .wDomMap, .wDomStr]
  if ok = false then pure (g, false)
  else if g.mode = .wRaw ∨ g.mode = .wDomRaw then do
    let g ← finishBlock z g
    pure (g, true)
  else do
    let s ← need g.sort
    let g ← initDoWrite g s.items.length
    let recs ← s.readAll g.nd
    let g ← doWrites g recs
    let g ← finishBlock z { g with sort := none, readPtr := if recs = [] then none else some [] }
    pure (g, true)

/-! ### aliases, texts, domains, comments -/

def anyWrite : List Mode := [.wInit, .wDomRaw, .wDomMap, .wDomStr, .wRaw, .wMap, .wStr]

/-- "Aliased with " -/
def aliasedWith : Str := [65, 108, 105, 97, 115, 101, 100, 32, 119, 105, 116, 104, 32]

/-- `*` -/
def star : Str := [42]

/-- gxfile.cpp:2106-2107: number of the symbol, the largest int for `*`, -1 if unknown -/
def aliasNr (syms : List Sym) (s : Str) : Int := if s = star then intMax else symIndex syms s

/-- gxfile.cpp:2117-2138: `name` becomes an alias of symbol `n`. (A name so long that the explanatory text does not fit,
    possible only after reading a damaged file, is treated as undefined.) -/
def addAliasTo (g : Gx) (syms : List Sym) (acros : List Acr) (n : Int) (name : Str) : Res (Gx × Bool) := do
  if n = intMax then
    let (g, ok) := isGoodNewSymbol g syms acros name
    if ok = false then pure (g, false)
    else pure ({ g with names := some (syms ++ [{ name := name, dim := 1, typ := dtAlias, userInfo := 0,
                                                  expl := aliasedWith ++ star }]) }, true)
  else do
    let s ← at1 syms n
    if ¬ (s.typ = dtSet ∨ s.typ = dtAlias) then pure (g.raise Err.aliasSetExpected, false)
    else
      let (g, ok) := isGoodNewSymbol g syms acros name
      if ok = false then pure (g, false)
      else if s.name.length + 13 > 255 then .ub
      else pure ({ g with names := some (syms ++ [{ name := name, dim := s.dim, typ := dtAlias, userInfo := n,
                                                    expl := aliasedWith ++ s.name }]) }, true)

/-- gxfile.cpp:2101-2139 gdxAddAlias -/
def addAlias (g : Gx) (id1 id2 : Str) : Res (Gx × Bool) := do
  let (g, ok) := g.chk anyWrite
  if ok = false then pure (g, false) else do
  let syms ← need g.names
  if (decide (aliasNr syms id1 ≥ 0) == decide (aliasNr syms id2 ≥ 0)) then pure (g.raise Err.aliasSetExpected, false)
  else do
    let acros ← need g.acros
    if aliasNr syms id1 > 0 then addAliasTo g syms acros (aliasNr syms id1) id2
    else addAliasTo g syms acros (aliasNr syms id2) id1

/-- gxfile.cpp:2141-2153 gdxAddSetText: success and TxtNr -/
def addSetText (g : Gx) (txt : Str) : Gx × (Bool × Int) :=
  match g.texts with
  | none => (g, (false, 0))
  | some l =>
    let s := makeGoodExplText (txt.take 255)
    match lookup true s (l.map Prod.fst) with
    | some n => (g, (true, n))
    | none => ({ g with texts := some (l ++ [(s, 0)]) }, (true, l.length))

/-- gxfile.cpp:3105-3115 gdxSetTextNodeNr -/
def setTextNodeNr (g : Gx) (nr node : Int) : Gx × Bool :=
  match g.texts with
  | none => (g, false)
  | some l =>
    if 0 ≤ nr ∧ nr < l.length ∧ (l[nr.toNat]?.map Prod.snd) = some 0 then
      ({ g with texts := some (l.modify nr.toNat fun e => (e.1, node)) }, true)
    else (g, false)

/-- Result of following a domain symbol, gxfile.cpp:2491-2523 -/
inductive DomRes where
  | noData                    -- ERR_NODOMAINDATA
  | notSet                    -- ERR_ALIASSETEXPECTED
  | universe                  -- alias of the universe
  | set (n : Int)
  deriving DecidableEq, Repr

/-- gxfile.cpp:2491-2523: the loop over aliases; `fuel` bounds the number of passes (a longer chain is a cycle) -/
def domFollow (syms : List Sym) (bogus : Bool) : Nat → Int → Res DomRes
  | 0, _ => .ub
  | fuel + 1, n => do
    let o ← at1 syms n
    let chkData : Bool := !bogus && o.dim == 1 && (o.typ == dtSet || o.typ == dtAlias)
    let noBits : Bool ← if chkData then do
        let t ← if o.typ = dtAlias then at1 syms o.userInfo else pure o
        pure t.bitmap.isNone
      else pure false
    if noBits then pure .noData
    else if o.typ = dtSet then pure (.set n)
    else if o.typ = dtAlias then
      if o.userInfo > 0 then domFollow syms bogus fuel o.userInfo else pure .universe
    else pure .notSet

/-- gxfile.cpp:2478-2532: loop over the index positions. Result: state, domain symbols so far, success so far, and whether
    the loop was left early (ERR_NODOMAINDATA). `cur` = number of the current symbol, `dim` its dimension. -/
def domLoop (syms : List Sym) (cur : Nat) (dim : Int) : Gx → Nat → List Str → Res (Gx × List Int × Bool × Bool)
  | g, _, [] => .ok (g, [], true, false)
  | g, d, s :: ss => do
    let n := if s = star then 0 else symIndex syms s
    let bad : Bool := s ≠ star && n ≤ 0
    let g := if bad then g.raise Err.unknownDomain else g
    if bad ∨ n = 0 then do
      let (g, l, ok, st) ← domLoop syms cur dim g (d + 1) ss
      pure (g, 0 :: l, ok && !bad, st)
    else do
      match ← domFollow syms g.allowBogus (syms.length + 1) n with
      | .noData => pure (g.raise Err.noDomainData, [], false, true)
      | .notSet => do
        let (g, l, _, st) ← domLoop syms cur dim (g.raise Err.aliasSetExpected) (d + 1) ss
        pure (g, 0 :: l, false, st)
      | .universe => do
        let (g, l, ok, st) ← domLoop syms cur dim g (d + 1) ss
        pure (g, n :: l, ok, st)
      | .set t => do
        let ts ← at1 syms t
        let g := if dim ≠ 1 ∨ n ≠ cur then
            { g with wrBits := g.wrBits.set d (if ts.bitmap.isSome then some t.toNat else none) } else g
        let (g, l, ok, st) ← domLoop syms cur dim g (d + 1) ss
        pure (g, n :: l, ok, st)

/-- the data mode that follows a domain mode, gxfile.cpp:2534-2548 -/
def Mode.dataOf : Mode → Mode
  | .wDomRaw => .wRaw
  | .wDomMap => .wMap
  | .wDomStr => .wStr
  | m => m

/-- gxfile.cpp:2458-2549 gdxSymbolSetDomain. A second call for the same symbol violates the assertion at 2472. -/
def symbolSetDomain (g : Gx) (ids : List Str) : Res (Gx × Bool) := do
  let (g, ok) := g.chk [.wDomRaw, .wDomMap, .wDomStr]
  if ok = false then pure (g, false)
  else match g.cur with
  | .none => pure (g, false)
  | .dangling => .ub
  | .sym n => do
    let syms ← need g.names
    let s ← g.curSym
    if s.domSyms.isSome ∨ ids.length ≠ s.dim.toNat then .ub else do
    let (g, l, ok, st) ← domLoop syms n s.dim g 0 ids
    let g ← g.modCur fun s => { s with domSyms := some (l ++ List.replicate (s.dim.toNat - l.length) 0) }
    if st then pure (g, false) else pure ({ g with mode := g.mode.dataOf }, ok)

/-- gxfile.cpp:2566-2581: one relaxed domain; the list of domain strings and the number (0 = none) -/
def relaxOne (l : List Str) (s : Str) : List Str × Int :=
  if s = [] ∨ s = star ∨ isGoodIdent s = false then (l, 0)
  else
    match lookup false s l with
    | some n => (l, n + 1)
    | none => (l ++ [s], l.length + 1)

def relaxAll : List Str → List Str → List Str × List Int
  | l, [] => (l, [])
  | l, s :: ss =>
    let r := relaxOne l s
    let q := relaxAll r.1 ss
    (q.1, r.2 :: q.2)

/-- gxfile.cpp:2549-2584 gdxSymbolSetDomainX -/
def symbolSetDomainX (g : Gx) (nr : Int) (ids : List Str) : Res (Gx × Bool) := do
  let syms ← need g.names
  if ¬ (1 ≤ nr ∧ nr ≤ syms.length) then pure (g.raise Err.badSymbolIndex, false)
  else do
    let s ← at1 syms nr
    if s.dim > 0 then
      if ids.length ≠ s.dim.toNat then .ub else do
      let l ← need g.domStrs
      let r := relaxAll l ids
      pure ({ g with domStrs := some r.1, names := some (syms.modify (nr.toNat - 1) fun s => { s with domStrs := some r.2 }) },
        true)
    else pure (g, true)

/-- gxfile.cpp:3530-3548 gdxSymbolAddComment; a text of more than 255 bytes is stored without terminating 0 -/
def symbolAddComment (g : Gx) (nr : Int) (txt : Str) : Res (Gx × Bool) := do
  let (g, ok) := g.chk anyWrite
  if ok = false then pure (g, false) else do
  let c : Option Str := if txt.length ≤ 255 then some txt else none
  let f (s : Sym) : Sym := { s with comments := s.comments ++ [c] }
  if nr ≤ 0 then
    match g.cur with
    | .none => pure (g.raise Err.noSymbolForComment, false)
    | _ => do
      let g ← g.modCur f
      pure (g, true)
  else
    match g.names with
    | some l =>
      if nr ≤ l.length then pure ({ g with names := some (l.modify (nr.toNat - 1) f) }, true)
      else pure (g.raise Err.noSymbolForComment, false)
    | none => pure (g.raise Err.noSymbolForComment, false)

/-! ### element registration -/

/-- gxfile.cpp:2617-2623 gdxUELRegisterRawStart -/
def uelRegisterRawStart (g : Gx) : Gx × Bool :=
  let (g, ok) := g.chk [.wInit]
  if ok then ({ g with modeAft := .wInit, mode := .rawElem }, true) else (g, false)

/-- gxfile.cpp:2638-2645, 2760-2768: the other two start functions, `m` = the new mode -/
def uelRegisterStart (g : Gx) (m : Mode) : Gx × Bool :=
  let (g, ok) := g.chk [.rInit, .wInit]
  if ok then ({ g with modeAft := if g.mode = .wInit then .wInit else .rInit, mode := m }, true) else (g, false)

def uelRegisterMapStart (g : Gx) : Gx × Bool := uelRegisterStart g .mapElem
def uelRegisterStrStart (g : Gx) : Gx × Bool := uelRegisterStart g .strElem

/-- gxfile.cpp:2593-2599 gdxUELRegisterDone -/
def uelRegisterDone (g : Gx) : Gx × Bool :=
  let (g, ok) := g.chk [.rawElem, .mapElem, .strElem]
  if ok then ({ g with mode := g.modeAft }, true) else (g, false)

/-- gxfile.cpp:2601-2615 gdxUELRegisterRaw -/
def uelRegisterRaw (g : Gx) (s : Str) : Res (Gx × Bool) := do
  let (g, ok) := g.chk [.rawElem]
  if ok = false then pure (g, false) else do
  let s ← trimR s
  if goodUEL s = false then pure (g.raise Err.badUelStr, false) else do
  let u ← need g.uel
  pure ({ g with uel := some (u.addObject s).1 }, true)

/-- gxfile.cpp:2625-2636 gdxUELRegisterStr: success and UelNr (0 = not assigned) -/
def uelRegisterStr (g : Gx) (s : Str) : Res (Gx × (Bool × Int)) := do
  let (g, ok) := g.chk [.strElem]
  if ok = false then pure (g, (false, 0)) else do
  let s ← trimR s
  if goodUEL s = false then pure (g.raise Err.badUelStr, (false, 0)) else do
  let u ← need g.uel
  let (u, n) ← u.addUsrNew s
  pure ({ g with uel := some u }, (true, n))

/-- gxfile.cpp:2770-2786 gdxUELRegisterMap -/
def uelRegisterMap (g : Gx) (umap : Int) (s : Str) : Res (Gx × Bool) := do
  let s ← trimR s
  let (g, ok) := g.chk [.mapElem]
  if ok = false then pure (g, false)
  else if goodUEL s = false then pure (g.raise Err.badUelStr, false) else do
  let u ← need g.uel
  let (u, n) ← u.addUsrIndxNew s umap
  let g := { g with uel := some u }
  if n ≥ 0 then pure (g, true) else pure (g.raise Err.uelConflict, false)

/-- gxfile.cpp:2677-2698 gdxRenameUEL -/
def renameUEL (g : Gx) (old new : Str) : Res (Gx × Int) := do
  match g.uel with
  | none => pure (g, -1)
  | some u => do
    let s ← trimR new
    if goodUEL s = false then pure (g, Err.badUelStr) else do
    let o ← trimR old
    if u.indexOf o < 0 then pure (g, 2)
    else if u.indexOf s ≥ 0 then pure (g, 3)
    else pure ({ g with uel := some (u.rename (u.indexOf o).toNat s) }, 0)

end Gdx
