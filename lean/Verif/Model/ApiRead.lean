import Verif.Model.FileFmt

/-!
Reading: `/repo/src/gxfile.cpp` PrepareSymbolRead 879-1160, DoRead 1382-1466 with AcronymRemap 1468-1512, ResultWillBeSorted
1556-1589, GetDefaultRecord 1591-1640, the record readers gdxDataReadRaw/Str/Map 1747-1812, 2193-2219, 2788-2957 and the
filters 3041-3103.

ExpndList (a local cache of the user map in PrepareSymbolRead) is left out: it always holds what the user map holds.
-/

namespace Gdx

/-! ### acronyms while reading -/

/-- gxfile.cpp:1470-1506 GetAsAcronym: new index for the stored index -/
def remapIndex (g : Gx) (org : Int) : Res (Gx × Int) := do
  let l ← need g.acros
  match acrFind l org with
  | none =>
    if g.nextAuto ≤ 0 then pure (g, org)
    else if g.nextAuto ≥ intMax then .ub
    else pure ({ g with nextAuto := g.nextAuto + 1
                        acros := some (l ++ [{ Acr.mk' [] [] org with readMap := g.nextAuto, auto := true }]) }, g.nextAuto)
  | some n => do
    let a ← at0 l n
    if a.readMap > 0 then pure (g, a.readMap)
    else if g.nextAuto ≤ 0 then pure (g, org)
    else if g.nextAuto ≥ intMax then .ub
    else pure ({ g with nextAuto := g.nextAuto + 1
                        acros := some (l.modify n fun a => { a with readMap := g.nextAuto, auto := true }) }, g.nextAuto)

/-- gxfile.cpp:1468-1512 AcronymRemap for a value ≥ 1e301 -/
def acronymRemap (g : Gx) (d : Dbl) : Res (Gx × Dbl) := do
  if d = Dbl.posInf then pure (g, g.sv.pin)
  else if g.acrNaN then pure (g, g.sv.na)
  else do
    let org ← acrDiv d
    let (g, n) ← remapIndex g org
    pure (g, acrValue n)

/-- gxfile.cpp:1434-1445: one value -/
def readVal (g : Gx) : SVal → Res (Gx × Dbl)
  | .code c => .ok (g, loadVal g.rsv id (.code c))
  | .num d => if geAcr d then acronymRemap g d else .ok (g, d)

def readVals : Gx → List SVal → Res (Gx × List Dbl)
  | g, [] => .ok (g, [])
  | g, v :: vs => do
    let (g, x) ← readVal g v
    let (g, xs) ← readVals g vs
    pure (g, x :: xs)

/-- an int converted to double (n ≥ 0) -/
def intDbl (n : Int) : Dbl := if n ≤ 0 then Dbl.zero else toDbl n

/-- gxfile.cpp:1446-1454: renumbering of a set text. Only numbers of MapSetText are modelled; anything else is treated as
    undefined (it may read behind the array). -/
def remapText (m : List Int) (x : Dbl) : Res Dbl :=
  match (List.range m.length).find? fun (n : Nat) => intDbl (n : Int) == x with
  | some n => match m[n]? with
    | some k => .ok (intDbl k)
    | none => .ub
  | none => .ub

/-- gxfile.cpp:1446-1454 for the values of a record -/
def remapTexts (g : Gx) (s : Sym) (vals : List Dbl) : Res (List Dbl) :=
  match g.mapText, vals with
  | some m, x :: xs =>
    if nonZero x ∧ s.typ = dtSet then do
      let x ← remapText m x
      pure (x :: xs)
    else .ok vals
  | _, _ => .ok vals

/-! ### default records -/

/-- a record of a variable or an equation with zero level and marginal and scale 1 -/
def defRec (lo up : Dbl) : List Dbl := [Dbl.zero, Dbl.zero, lo, up, Dbl.one]

/-- gclgms.h:189-201 gmsDefRecVar with the reader's infinities -/
def defVar (t : SVTab) (ui : Int) : List Dbl :=
  if ui = 1 then defRec Dbl.zero Dbl.one
  else if ui = 2 ∨ ui = 3 ∨ ui = 6 ∨ ui = 7 then defRec Dbl.zero t.pin
  else if ui = 4 then defRec t.min Dbl.zero
  else if ui = 5 then defRec t.min t.pin
  else if ui = 8 ∨ ui = 9 then defRec Dbl.one t.pin
  else defRec Dbl.zero Dbl.zero

/-- gclgms.h:203-212 gmsDefRecEqu -/
def defEqu (t : SVTab) (ui : Int) : List Dbl :=
  if ui = 53 + 1 ∨ ui = 53 + 5 then defRec Dbl.zero t.pin
  else if ui = 53 + 2 then defRec t.min Dbl.zero
  else if ui = 53 + 3 then defRec t.min t.pin
  else defRec Dbl.zero Dbl.zero

/-- gxfile.cpp:1605-1633 GetDefaultRecord -/
def defaultRecord (t : SVTab) (s : Sym) : List Dbl :=
  if s.typ = dtVar then defVar t s.userInfo
  else if s.typ = dtEqu then defEqu t s.userInfo
  else [Dbl.zero]

/-! ### DoRead -/

/-- gxfile.cpp:1382-1466 DoRead: `none` = no more records, otherwise AFDim and the values; the key is in LastElem -/
def doRead (g : Gx) : Res (Gx × Option (Nat × List Dbl)) := do
  if g.rdUniverse then
    if g.universeNr ≥ intMax then .ub
    else if g.universeNr + 1 ≤ g.uelOrig then
      pure ({ g with universeNr := g.universeNr + 1, last := [g.universeNr + 1] }, some (1, [Dbl.zero]))
    else pure ({ g with universeNr := g.universeNr + 1 }, none)
  else do
    let s ← g.curSym
    if g.scalarFrst then pure ({ g with scalarFrst := false }, some (0, defaultRecord g.rsv s))
    else do
      let (o, r) ← rdOk (decRec g.nd g.deltaRead g.dataSize (g.bounds.map posDesc) g.last) g.rest
      let g := { g with rest := r }
      match o with
      | none => pure (g, none)
      | some (fd, rec) => do
        let (g, vals) ← readVals g rec.vals
        let vals ← remapTexts g s vals
        pure ({ g with last := rec.key }, some (fd, vals))

/-- enough passes for any loop over DoRead: every call consumes a byte, an element of the universe or the default record -/
def Gx.fuel (g : Gx) : Nat := if g.rdUniverse then (g.uelOrig - g.universeNr).toNat + 1 else g.rest.length + 2

/-! ### filters -/

/-- gxfile.cpp:4026-4032 FindFilter -/
def findFilter (l : List Filt) (nr : Int) : Option Filt := l.find? fun f => f.nr == nr

/-- gxfile.cpp:3041-3045 gdxFilterExists; AnyReadMode = {fr_init, fr_raw_data, fr_map_data, fr_mapr_data, fr_str_data} -/
def filterExists (g : Gx) (nr : Int) : Res (Gx × Bool) := do
  let (g, ok) := g.chk [.rInit, .rRaw, .rMap, .rMapR, .rStr]
  if ok = false then pure (g, false) else do
  let l ← need g.filters
  pure (g, (findFilter l nr).isSome)

/-- gxfile.cpp:3047-3055 gdxFilterRegisterStart; the new filter is the last one of the list (CurFilter) -/
def filterRegisterStart (g : Gx) (nr : Int) : Res (Gx × Bool) := do
  let (g, ok) := g.chk [.rInit]
  if ok = false then pure (g, false)
  else if nr < 1 then pure (g.raise Err.badFilterNr, false) else do
  let u ← need g.uel
  let l ← need g.filters
  let f : Filt := { nr := nr, maxUel := u.usr.highest, map := BitArr.empty, sorted := false }
  pure ({ g with filters := some (l.eraseP (fun f => f.nr == nr) ++ [f]), mode := .rFilter }, true)

/-- change of the last entry -/
def modLast {α : Type} (l : List α) (f : α → α) : List α := l.modify (l.length - 1) f

/-- gxfile.cpp:3057-3072 gdxFilterRegister -/
def filterRegister (g : Gx) (um : Int) : Res (Gx × Bool) := do
  let (g, ok) := g.chk [.rFilter]
  if ok = false then pure (g, false) else do
  let l ← need g.filters
  let f ← need l.getLast?
  let u ← need g.uel
  if ¬ (1 ≤ um ∧ um ≤ f.maxUel) then pure (g.raise Err.badFilterIndx, false)
  else if u.usr.get um ≥ 1 then do
    let m ← f.map.set um true
    pure ({ g with filters := some (modLast l fun f => { f with map := m }) }, true)
  else pure (g.raise Err.filterUnmapped, false)

/-- gxfile.cpp:3081-3094: are the user numbers of the filter increasing in the order of the elements? -/
def filtGrows (f : Filt) : List Int → Int → Bool
  | [], _ => true
  | v :: vs, lv => if f.mem v then (if v ≤ lv then false else filtGrows f vs v) else filtGrows f vs lv

/-- gxfile.cpp:3074-3097 gdxFilterRegisterDone -/
def filterRegisterDone (g : Gx) : Res (Gx × Bool) := do
  let (g, ok) := g.chk [.rFilter]
  if ok = false then pure (g, false) else do
  let l ← need g.filters
  let f ← need l.getLast?
  match g.uel with
  | none => pure ({ g with mode := .rInit, filters := some (modLast l fun f => { f with sorted := true }) }, true)
  | some u =>
    let (u', st) := u.mapStat
    let so : Bool := if st = .unsorted then filtGrows f (u.ents.map Prod.snd) (-1) else true
    pure ({ g with mode := .rInit, uel := some u', filters := some (modLast l fun f => { f with sorted := so }) }, true)

/-! ### PrepareSymbolRead -/

/-- gxfile.cpp:1798-1808: confirm the user numbers given to new elements, `n` of them from `hi` downwards -/
def confirmNew : Nat → Int → Uel → Res Uel
  | 0, _, u => .ok u
  | n + 1, hi, u => do
    if hi < 1 then .ub else do
    let en := u.usr.get hi
    let d ← u.userMap en
    if d = -1 ∨ d = hi then confirmNew n (hi - 1) (u.setMap en.toNat hi) else .ub

/-- gxfile.cpp:1776-1812 gdxDataReadDone -/
def dataReadDone (g : Gx) : Res (Gx × Bool) := do
  let g := { g with sort := none, cur := .none }
  let (g, ok) := g.chk [.rInit, .rRaw, .rMap, .rMapR, .rStr, .rSlice]
  if ok = false then pure ({ g with mode := .rInit }, false)
  else if g.nrMapped ≠ 0 then do
    let u ← need g.uel
    let u ← confirmNew g.nrMapped.toNat u.usr.highest u
    pure ({ g with uel := some u, nrMapped := 0, mode := .rInit }, true)
  else pure ({ g with mode := .rInit }, true)

/-- gxfile.cpp:898-913: follow the aliases from symbol `n`; `none` = the universe. `fuel`: more passes mean a cycle; the
    assertion at 914 wants a set at the end. -/
def aliasTarget (syms : List Sym) : Nat → Int → Res (Option Nat)
  | 0, _ => .ub
  | fuel + 1, n => do
    let s ← at1 syms n
    if s.typ = dtAlias then
      if s.userInfo = 0 then pure none
      else aliasTarget syms fuel s.userInfo
    else if s.typ = dtSet then pure (some n.toNat)
    else .ub

/-- gxfile.cpp:895-917: which symbol is read -/
def readTarget (syms : List Sym) (n : Int) : Res (Option Nat) := do
  if n = 0 then pure none else do
  let s ← at1 syms n
  if s.typ = dtAlias then aliasTarget syms (syms.length + 1) n else pure (some n.toNat)

/-- DOMC_UNMAPPED, DOMC_EXPAND, DOMC_STRICT (gxfile.hpp / gdx.hpp) -/
def domcUnmapped : Int := -2
def domcExpand : Int := -1
def domcStrict : Int := 0

/-- gxfile.cpp:941-969: the actions; `none` = unknown filter -/
def domActs (l : List Filt) : List Int → Option (List DAct)
  | [] => some []
  | a :: as => do
    let x ← if a = domcUnmapped then some DAct.unmapped
      else if a = domcExpand then some DAct.expand
      else if a = domcStrict then some DAct.strict
      else (findFilter l a).map DAct.filter
    let xs ← domActs l as
    some (x :: xs)

/-- gxfile.cpp:1556-1589 ResultWillBeSorted, position by position (`d` = number of the position) with the status of the
    user map -/
def willBeSorted (st : MapStat) : Nat → List DAct → Bool
  | _, [] => true
  | d, a :: as =>
    (match a with
      | .unmapped => true
      | .expand => if d = 0 then st = .sortgrow ∨ st = .sortfull else st = .sortfull
      | .strict => st ≠ .unsorted
      | .filter f => st ≠ .unsorted ∨ f.sorted) && willBeSorted st (d + 1) as

/-- What becomes of an element in one position -/
inductive PosOut where
  | key (v : Int)     -- the delivered number
  | new               -- a new user number is needed
  | err               -- the record is not delivered
  deriving DecidableEq, Repr

/-- gxfile.cpp:1024-1075 and 2842-2883: the action of one position for element `e` -/
def transPos (u : Uel) (a : DAct) (e : Int) : Res PosOut :=
  match a with
  | .unmapped => .ok (.key e)
  | .filter f => do
    let v ← u.userMap e
    pure (if f.mem v then .key v else .err)
  | .strict => do
    let v ← u.userMap e
    pure (if v ≥ 0 then .key v else .err)
  | .expand => do
    let v ← u.userMap e
    pure (if v ≥ 0 then .key v else .new)

/-- gxfile.cpp:1016-1078 and 2830-2887: translate the positions, `d` = number of the first one. `old` is what the key array
    holds. Result: the key array (-e for elements that need a new number), the position where the loop stopped (with `true`
    for a bad element number), and whether some element needs a new number. `hi`: is the upper limit checked, too? -/
def mapScan (u : Uel) (hi : Bool) : Nat → List DAct → List Int → List Int → Res (List Int × Option (Bool × Nat) × Bool)
  | d, a :: as, e :: es, o :: os => do
    if e < 0 ∨ (hi ∧ e ≥ u.size + 1) then pure (o :: os, some (true, d), false) else do
    match ← transPos u a e with
    | .err => pure (o :: os, some (false, d), false)
    | .key v => do
      let (l, s, n) ← mapScan u hi (d + 1) as es os
      pure (v :: l, s, n)
    | .new => do
      let (l, s, _) ← mapScan u hi (d + 1) as es os
      pure (-e :: l, s, true)
  | _, _, _, os => .ok (os, none, false)

/-- gxfile.cpp:1105-1122 and 2925-2939: give user numbers to the new elements. Result: also how many. -/
def resolveNew (u : Uel) : List Int → Res (Uel × List Int × Nat)
  | [] => .ok (u, [], 0)
  | k :: ks =>
    if k < 0 then do
      let (u, v) ← u.newUsrUel (-k)
      let (u, l, n) ← resolveNew u (ks.map fun x => if x = k then v else x)
      pure (u, v :: l, n + 1)
    else do
      let (u, l, n) ← resolveNew u ks
      pure (u, k :: l, n)
  termination_by l => l.length
  decreasing_by all_goals simp

/-- only if AddNew is set -/
def resolveIf (b : Bool) (u : Uel) (l : List Int) : Res (Uel × List Int × Nat) := if b then resolveNew u l else .ok (u, l, 0)

/-- Local state of the loop in PrepareSymbolRead -/
structure MapLoop where
  els : List Int          -- AElements
  fi : Nat                -- FIDim
  addNew : Bool
  allocOk : Bool
  deriving DecidableEq, Repr

/-- gxfile.cpp:1079-1124: what happens after the positions of a record have been translated. Result `false`: leave the
    loop. -/
def mapRecord (g : Gx) (m : MapLoop) (vals : List Dbl) (stop : Option (Bool × Nat)) : Res (Gx × MapLoop × Bool) := do
  match stop with
  | some (true, _) => pure (g.raise Err.badElementIndex, { m with allocOk := false }, false)
  | some (false, d) => do
    let bad := (g.last.drop (d + 2)).any (· < 0)
    let g := if bad then g.raise Err.badElementIndex else g
    let g := addErrDom g (g.last.modify d (- ·)) vals
    pure (g, { m with fi := d + 1, allocOk := m.allocOk && !bad }, true)
  | none => do
    let u ← need g.uel
    let (u, els, n) ← resolveIf m.addNew u m.els
    let g ← sortAdd { g with uel := some u, nrMapped := g.nrMapped + n } els vals
    pure (g, { m with els := els, addNew := false }, true)

/-- gxfile.cpp:1010-1127: read all records into the sort list -/
def mapLoop : Nat → Gx → MapLoop → Res (Gx × MapLoop)
  | 0, _, _ => .ub
  | fuel + 1, g, m => do
    let (g, o) ← doRead g
    match o with
    | none => pure (g, m)
    | some (fd, vals) => do
      let fd := if m.fi < fd then m.fi else fd
      if fd = 0 then .ub else do
      let u ← need g.uel
      let d := fd - 1
      let (l, stop, new) ← mapScan u false d (g.doms.drop d) (g.last.drop d) (m.els.drop d)
      let m := { m with els := m.els.take d ++ l, fi := g.nd, addNew := m.addNew || new }
      let (g, m, go) ← mapRecord g m vals stop
      if go then mapLoop fuel g m else pure (g, m)

/-- ERR_OUT_OF_MEMORY -/
def errOutOfMemory : Int := -100043

/-- gxfile.cpp:1139-1159: end of a successful PrepareSymbolRead -/
def readReady (g : Gx) (m : Mode) (n : Int) : Gx × Int :=
  ({ g with last := List.replicate g.nd (-1), mode := m }, n)

/-- gxfile.cpp:1000-1159 for the mapped modes -/
def prepareMapped (g : Gx) (nrRecs : Int) : Res (Gx × Int) := do
  let u ← need g.uel
  let usesMap := g.doms.any (· ≠ DAct.unmapped)
  let (u, st) := if usesMap then u.mapStat else (u, MapStat.sortfull)
  let g := { g with uel := some u }
  if willBeSorted st 0 g.doms then pure (readReady g .rMapR nrRecs)
  else do
    let g := { g with sort := some LData.empty }
    let (g, m) ← mapLoop g.fuel g { els := List.replicate g.nd 0, fi := g.nd, addNew := false, allocOk := true }
    let s ← need g.sort
    let recs ← s.readAll g.nd
    let s' ← s.sort g.nd
    let g := { g with sort := some s', readPtr := if recs = [] then none else some recs }
    if m.allocOk then pure (readReady g .rMap recs.length)
    else pure ({ g.raise errOutOfMemory with sort := none, mode := .rInit }, -1)

/-- gxfile.cpp:970-1159: the part of PrepareSymbolRead behind the preparation of the positions, for a stored symbol.
    `l` = the bytes of the data block. -/
def prepareData (g : Gx) (l : List UInt8) (nrRecs : Int) (newmode : Mode) : Res (Gx × Int) := do
  let (m, l) := rdStrE l
  if m ≠ markData then pure (g.raise Err.badDataMarkerData, -1) else do
  let (d, l) ← rdOk rdByte l
  if (d.toNat : Int) ≠ g.curDim then pure (g.raise Err.badDataMarkerDim, -1) else do
  let (_, l) ← rdOk rdInt l
  if g.curDim = 0 ∧ nrRecs = 0 then pure ({ g with scalarFrst := true, mode := newmode, rest := l, last := [], bounds := [] }, 1) else do
  let (bs, l) ← rdOk (decBounds g.nd) l
  let g := { g with scalarFrst := false, last := List.replicate g.nd indexInitial
                    prev := List.replicate g.nd (-1) ++ g.prev.drop g.nd, bounds := bs, rest := l }
  if newmode = .rMap then prepareMapped g nrRecs else pure (readReady g newmode nrRecs)

/-- gxfile.cpp:885-886: a read in progress is finished -/
def finishRead (g : Gx) : Res Gx :=
  if g.mode = .rStr ∨ g.mode = .rMap ∨ g.mode = .rMapR ∨ g.mode = .rRaw then do
    let r ← dataReadDone g
    pure r.1
  else .ok g

/-- gxfile.cpp:885-897: state and test at the start -/
def prepareStart (g : Gx) : Res (Gx × Bool) := do
  let g ← finishRead g
  let g := { g with nrMapped := 0, errList := none, cur := .none, sort := none }
  let (g, ok) := g.chk [.rInit]
  if ok = false then pure ({ g with mode := .rInit }, false) else pure (g, true)

/-- gxfile.cpp:879-1160 PrepareSymbolRead: number of records or -1. `acts` has 20 entries (the user's FilterAction array
    needs one per position). -/
def prepareRead (z : Cz) (g : Gx) (nr : Int) (acts : List Int) (newmode : Mode) : Res (Gx × Int) := do
  let (g, ok) ← prepareStart g
  if ok = false then pure (g, -1) else do
  let g := { g with rdUniverse := decide (nr = 0) }
  let filters ← need g.filters
  let syms ← need g.names
  if nr ≠ 0 ∧ ¬ (1 ≤ nr ∧ nr ≤ syms.length) then pure (g.raise Err.badSymbolIndex, -1) else do
  match ← readTarget syms nr with
  | none => do
    if acts.length < 1 then .ub else do
    let g := { g with rdUniverse := true, curDim := 1, dataSize := 1, universeNr := 0, cur := .none
                      deltaRead := if g.verRead ≤ 6 then 10 else 1 }
    match domActs filters (acts.take 1) with
    | none => pure (g.raise Err.unknownFilter, -1)
    | some das => do
      let g := { g with doms := das, scalarFrst := false }
      if newmode = .rMap then prepareMapped g g.uelOrig else pure (readReady g newmode g.uelOrig)
  | some n => do
    let s ← at1 syms n
    if s.dim > maxDim ∨ s.typ > 4 ∨ acts.length < s.dim.toNat then .ub else do
    let g := { g with cur := .sym n, curDim := s.dim, dataSize := dataTypSize s.typ
                      deltaRead := if g.verRead ≤ 6 then 10 else s.dim.toNat }
    if s.pos < 0 ∨ g.opened = false then .ub else do
    match domActs filters (acts.take s.dim.toNat) with
    | none => pure (g.raise Err.unknownFilter, -1)
    | some das =>
      prepareData { g with doms := das } (z.rd s.compr (g.file.drop s.pos.toNat)) s.dataCount newmode

/-! ### the record readers -/

/-- gxfile.cpp:2214-2219 gdxDataReadRawStart: success and NrRecs -/
def dataReadRawStart (z : Cz) (g : Gx) (nr : Int) : Res (Gx × (Bool × Int)) := do
  let (g, n) ← prepareRead z g nr (List.replicate 20 domcUnmapped) .rRaw
  pure (g, (decide (n ≥ 0), n))

/-- gxfile.cpp:1840-1845 gdxDataReadStrStart -/
def dataReadStrStart (z : Cz) (g : Gx) (nr : Int) : Res (Gx × (Bool × Int)) := do
  let (g, n) ← prepareRead z g nr (List.replicate 20 domcUnmapped) .rStr
  pure (g, (decide (n ≥ 0), n))

/-- gxfile.cpp:2788-2793 gdxDataReadMapStart -/
def dataReadMapStart (z : Cz) (g : Gx) (nr : Int) : Res (Gx × (Bool × Int)) := do
  let (g, n) ← prepareRead z g nr (List.replicate 20 domcStrict) .rMap
  pure (g, (decide (n ≥ 0), n))

/-- gxfile.cpp:3099-3103 gdxDataReadFilteredStart -/
def dataReadFilteredStart (z : Cz) (g : Gx) (nr : Int) (acts : List Int) : Res (Gx × (Bool × Int)) := do
  let (g, n) ← prepareRead z g nr acts .rMap
  pure (g, (decide (n ≥ 0), n))

/-- A delivered record: key, values, DimFrst -/
structure RecOut (κ : Type) where
  key : List κ
  vals : List Dbl
  frst : Nat
  deriving DecidableEq, Repr

/-- gxfile.cpp:2193-2212 gdxDataReadRaw -/
def dataReadRaw (g : Gx) : Res (Gx × Option (RecOut Int)) := do
  let (g, ok) := g.chk [.rRaw]
  if ok = false then pure (g, none) else do
  let (g, o) ← doRead g
  match o with
  | none => do
    let (g, _) ← dataReadDone g
    pure (g, none)
  | some (fd, vals) => pure (g, some ⟨g.last.take g.nd, vals, fd⟩)

/-- "L__" with prefix "?": BADUEL_PREFIX -/
def badUelPrefix : Str := [63, 76, 95, 95]

/-- gxfile.cpp:1758-1771: the string of an element; a longer string than the user's buffer is undefined -/
def elemStr (u : Option Uel) (e : Int) : Res Str :=
  match u with
  | some u =>
    if 1 ≤ e ∧ e ≤ u.size then do
      let s ← u.str e
      if s.length ≥ 64 then .ub else pure s
    else .ok (badUelPrefix ++ intToStr e)
  | none => .ok (badUelPrefix ++ intToStr e)

def elemStrs (u : Option Uel) : List Int → Res (List Str)
  | [] => .ok []
  | e :: es => do
    let s ← elemStr u e
    let ss ← elemStrs u es
    pure (s :: ss)

/-- gxfile.cpp:1747-1774 gdxDataReadStr -/
def dataReadStr (g : Gx) : Res (Gx × Option (RecOut Str)) := do
  let (g, ok) := g.chk [.rStr]
  if ok = false then pure (g, none) else do
  let (g, o) ← doRead g
  match o with
  | none => do
    let (g, _) ← dataReadDone g
    pure (g, none)
  | some (fd, vals) => do
    let ks ← elemStrs g.uel (g.last.take g.nd)
    pure (g, some ⟨ks, vals, fd⟩)

/-- gxfile.cpp:2812-2819, 2943-2952: DimFrst = the first position that differs from the previous key, 0 if none -/
def frstDiff (prev key : List Int) : Nat :=
  match (List.zip prev key).findIdx? fun p => p.1 != p.2 with
  | some d => d + 1
  | none => 0

/-- deliver a record of the mapped readers -/
def deliver (g : Gx) (key : List Int) (vals : List Dbl) : Gx × Option (RecOut Int) :=
  ({ g with prev := key ++ g.prev.drop key.length }, some ⟨key, vals, frstDiff g.prev key⟩)

/-- gxfile.cpp:2898-2916: one position -/
def markOne (u : Uel) (a : DAct) (e : Int) : Res Int :=
  match a with
  | .filter f => do
    let v ← u.userMap e
    pure (if f.mem v then e else -e)
  | .strict => do
    let v ← u.userMap e
    pure (if v < 0 then -e else e)
  | _ => .ok e

/-- gxfile.cpp:2892-2918: negate the elements that are not admitted. Result `false`: a negative element number was found;
    the positions before it stay changed. -/
def markBad (u : Uel) : List DAct → List Int → Res (List Int × Bool)
  | a :: as, e :: es => do
    if e < 0 then pure (e :: es, false) else do
    let e' ← markOne u a e
    let (l, ok) ← markBad u as es
    pure (e' :: l, ok)
  | _, es => .ok (es, true)

/-- gxfile.cpp:2830-2887: translate the positions from `fd` on in the user's key array -/
def scanKey (u : Uel) (g : Gx) (fd : Nat) (key : List Int) : Res (List Int × Option (Bool × Nat) × Bool) :=
  if fd = 0 then .ok (key, none, false)
  else do
    let d := fd - 1
    let (l, s, n) ← mapScan u true d (g.doms.drop d) (g.last.drop d) (key.drop d)
    pure (key.take d ++ l, s, n)

/-- gxfile.cpp:2823-2954: the streaming reader; `key` = the user's key array, `fi` = FIDim, `new` = AddNew -/
def streamMap : Nat → Gx → List Int → Nat → Bool → Res (Gx × Option (RecOut Int))
  | 0, _, _, _, _ => .ub
  | fuel + 1, g, key, fi, new => do
    let (g, o) ← doRead g
    match o with
    | none => pure (g, none)
    | some (fd, vals) => do
      let fd := if fi < fd then fi else fd
      let u ← need g.uel
      let (key, stop, nw) ← scanKey u g fd key
      let new := new || nw
      match stop with
      | some (true, _) => pure (g.raise Err.badElementIndex, none)
      | some (false, d) => do
        let (bad, ok) ← markBad u g.doms g.last
        if ok = false then pure ({ g with last := bad }.raise Err.badElementIndex, none)
        else
          let g := addErrDom { g with last := bad.map fun e => if e < 0 then -e else e } bad vals
          streamMap fuel g key (d + 1) new
      | none => do
        let (u, key, n) ← resolveIf new u key
        pure (deliver { g with uel := some u, nrMapped := g.nrMapped + n } key vals)

/-- gxfile.cpp:2795-2957 gdxDataReadMap; `keyIn` = content of the user's key array before the call -/
def dataReadMap (g : Gx) (keyIn : List Int) : Res (Gx × Option (RecOut Int)) := do
  let (g, ok) := g.chk [.rMap, .rMapR]
  if ok = false then pure (g, none)
  else if g.cur = .dangling then .ub
  else if g.cur ≠ .none ∧ g.scalarFrst = true then do
    let s ← g.curSym
    pure ({ g with scalarFrst := false }, some ⟨[], defaultRecord g.rsv s, 0⟩)
  else if g.mode = .rMap then
    match g.readPtr with
    | none => pure (g, none)
    | some [] => if g.sort.isNone then .ub else pure (g, none)
    | some (r :: rs) =>
      if g.sort.isNone then .ub
      else pure (deliver { g with readPtr := some rs } r.key r.val)
  else if keyIn.length ≠ g.nd then .ub
  else streamMap g.fuel g keyIn g.nd false

end Gdx
