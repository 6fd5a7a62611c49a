import Verif.Model.ApiRead

/-!
Queries, acronym functions and the readers with callbacks: `/repo/src/gxfile.cpp` 1732-1745, 1814-1838, 2155-2191,
2253-2456, 2586-2591, 2647-2675, 2705-2717, 2959-3039, 3117-3187, 3221-3434, 3458-3735.

An output string that does not fit into the documented buffer is treated as undefined (the helper functions either leave
the buffer unassigned or write behind it). A callback is modelled by what it is called with; where its answer decides
whether to go on, the answer is a function of the records delivered so far.
-/

namespace Gdx

/-- a string that must fit, with its terminating 0, into a buffer of `n` bytes -/
def fits (n : Nat) (s : Str) : Res Str := if s.length < n then .ok s else .ub

/-! ### symbols -/

/-- gxfile.cpp:1732-1745 gdxFindSymbol; the number is -1 or not assigned if there is no such symbol -/
def findSymbol (g : Gx) (s : Str) : Bool × Int :=
  if s = star then (true, 0)
  else match g.names with
  | some l => (decide (symIndex l s ≥ 1), symIndex l s)
  | none => (false, 0)

/-- the symbol with this number, if the number is legal -/
def Gx.symAt (g : Gx) (n : Int) : Option Sym :=
  match g.names with
  | some l => if 1 ≤ n ∧ n ≤ l.length then l[(n - 1).toNat]? else none
  | none => none

/-- Results of gdxSymbolInfo -/
structure SymInfo where
  ok : Bool
  name : Str
  dim : Int
  typ : Nat
  deriving DecidableEq, Repr

/-- gxfile.cpp:1814-1838 gdxSymbolInfo -/
def symbolInfo (g : Gx) (n : Int) : SymInfo :=
  if n = 0 then ⟨true, star, 1, dtSet⟩
  else match g.symAt n with
  | some s => ⟨true, s.name, s.dim, s.typ⟩
  | none => ⟨false, [], -1, dtSet⟩

/-- gxfile.cpp:2430-2434 gdxSymbolDim -/
def symbolDim (g : Gx) (n : Int) : Int :=
  if n = 0 then 1
  else match g.symAt n with
  | some s => s.dim
  | none => -1

/-- Results of gdxSymbolInfoX -/
structure SymInfoX where
  ok : Bool
  recs : Int
  userInfo : Int
  expl : Str
  deriving DecidableEq, Repr

/-- "Universe" -/
def universeText : Str := [85, 110, 105, 118, 101, 114, 115, 101]

/-- gxfile.cpp:2436-2456 gdxSymbolInfoX -/
def symbolInfoX (g : Gx) (n : Int) : SymInfoX :=
  if n = 0 then ⟨true, g.uelOrig, 0, universeText⟩
  else match g.symAt n with
  | some s => ⟨true, if s.dim = 0 then 1 else s.dataCount, s.userInfo, s.expl⟩
  | none => ⟨false, 0, 0, []⟩

/-- gxfile.cpp:2586-2591 gdxSystemInfo: number of symbols, number of elements -/
def systemInfo (g : Gx) : Int × Int :=
  ((g.names.map fun l => (l.length : Int)).getD 0, (g.uel.map Uel.size).getD 0)

/-- gxfile.cpp:3458-3461 gdxSetHasText -/
def setHasText (g : Gx) (n : Int) : Bool :=
  match g.symAt n with
  | some s => s.setText
  | none => false

/-- gxfile.cpp:3550-3563 gdxSymbolGetComment -/
def symbolGetComment (g : Gx) (nr n : Int) : Res (Bool × Str) :=
  match g.symAt nr with
  | some s =>
    if 1 ≤ n ∧ n ≤ s.comments.length then
      match s.comments[(n - 1).toNat]? with
      | some (some c) => .ok (true, c)
      | _ => .ub
    else .ok (false, [])
  | none => .ok (false, [])

/-- gxfile.cpp:2374-2381 gdxSymbolGetDomain -/
def symbolGetDomain (g : Gx) (n : Int) : Res (Gx × Option (List Int)) := do
  let _ ← need g.names
  match g.symAt n with
  | none => pure (g.raise Err.badSymbolIndex, none)
  | some s => pure (g, some (s.domSyms.getD (List.replicate s.dim.toNat 0)))

/-- names for numbers (0 = `*`) out of a 1-based table -/
def namesAt (l : List Str) : List Int → Res (List Str)
  | [] => .ok []
  | n :: ns => do
    let s ← if n = 0 then pure star else do
      let s ← at1 l n
      fits ssSize s
    let r ← namesAt l ns
    pure (s :: r)

/-- gxfile.cpp:2383-2428 gdxSymbolGetDomainX: result code and names -/
def symbolGetDomainX (g : Gx) (n : Int) : Res (Gx × (Int × List Str)) := do
  let l ← need g.names
  match g.symAt n with
  | none => pure (g.raise Err.badSymbolIndex, (0, []))
  | some s =>
    match s.domStrs, s.domSyms with
    | some ds, _ => do
      let dl ← need g.domStrs
      let r ← namesAt dl ds
      pure (g, (2, r))
    | none, none => pure (g, (1, List.replicate s.dim.toNat star))
    | none, some ds => do
      let r ← namesAt (l.map Sym.name) ds
      pure (g, (3, r))

/-- gxfile.cpp:3522-3528 gdxSymbMaxLength -/
def symbMaxLength (g : Gx) : Res Int := do
  let l ← need g.names
  pure (l.foldl (fun m s => max m (s.name.length : Int)) 0)

/-! ### elements -/

/-- gxfile.cpp:2647-2658 gdxUMUelGet: success, string, user map -/
def umUelGet (g : Gx) (n : Int) : Res (Bool × Str × Int) :=
  match g.uel with
  | some u =>
    if 1 ≤ n ∧ n ≤ u.size then do
      let s ← u.str n
      let s ← fits 64 s
      let m ← u.userMap n
      pure (true, s, m)
    else .ok (false, badUelPrefix ++ intToStr n, -1)
  | none => .ok (false, badUelPrefix ++ intToStr n, -1)

/-- gxfile.cpp:3570-3584 gdxUMFindUEL: success, number, user map -/
def umFindUEL (g : Gx) (s : Str) : Res (Bool × Int × Int) :=
  match g.uel with
  | none => .ok (false, -1, -1)
  | some u => do
    let s ← trimR s
    if u.indexOf s < 0 then pure (false, u.indexOf s, -1) else do
    let m ← u.userMap (u.indexOf s)
    pure (true, u.indexOf s, m)

/-- gxfile.cpp:2660-2670 gdxUMUelInfo: success, number of elements, highest user index -/
def umUelInfo (g : Gx) : Res (Bool × Int × Int) :=
  if g.opened = false then .ok (false, 0, 0)
  else do
    let u ← need g.uel
    pure (true, u.size, u.usr.highest)

/-- gxfile.cpp:2705-2717 gdxGetUEL -/
def getUEL (g : Gx) (k : Int) : Res (Bool × Str) :=
  match g.uel with
  | none => .ok (false, [])
  | some u =>
    if u.usr.get k ≥ 1 then do
      let s ← u.str (u.usr.get k)
      let s ← fits 64 s
      pure (true, s)
    else .ok (false, badUelPrefix ++ intToStr k)

/-- gxfile.cpp:3565-3568 gdxUELMaxLength -/
def uelMaxLength (g : Gx) : Res Int := do
  let u ← need g.uel
  pure u.maxLen

/-! ### texts, errors, special values, file -/

/-- "?Str__" -/
def badStrPrefix : Str := [63, 83, 116, 114, 95, 95]

/-- gxfile.cpp:2258-2280 gdxGetElemText: success, text, node -/
def getElemText (g : Gx) (n : Int) : Bool × Str × Int :=
  match g.texts with
  | none => (false, [], 0)
  | some l =>
    if 0 ≤ n then
      match l[n.toNat]? with
      | some (s, nd) => (true, s, nd)
      | none => (false, badStrPrefix ++ intToStr n, 0)
    else (false, badStrPrefix ++ intToStr n, 0)

/-- gxfile.cpp:2282-2297 gdxGetLastError (no I/O error) -/
def getLastError (g : Gx) : Gx × Int := ({ g with lastErr := 0, taken := g.raised.length }, g.lastErr)

/-- gxfile.cpp:2253-2256 gdxErrorCount -/
def errorCount (g : Gx) : Int := g.errTotal

/-- gxfile.cpp:2155-2158 gdxDataErrorCount -/
def dataErrorCount (g : Gx) : Int := (g.errList.map fun l => (l.length : Int)).getD 0

/-- gxfile.cpp:2173-2191 gdxDataErrorRecordX -/
def dataErrorRecordX (g : Gx) (n : Int) : Gx × Option (List Int × List Dbl) :=
  let (g, ok) := g.chk [.rInit, .wInit, .rMap, .rMapR, .wRaw, .wMap, .wStr]
  if ok = false then (g, none)
  else match g.errList with
  | none => (g, none)
  | some l =>
    if 1 ≤ n ∧ n ≤ l.length then (g, l[(n - 1).toNat]?) else (g.raise Err.badErrorRecord, none)

/-- gxfile.cpp:2160-2171 gdxDataErrorRecord -/
def dataErrorRecord (g : Gx) (n : Int) : Gx × Option (List Int × List Dbl) :=
  let r := dataErrorRecordX g n
  (r.1, r.2.map fun e => (e.1.map fun k => if k < 0 then -k else k, e.2))

/-- gxfile.cpp:2320-2372 gdxSetSpecialValues -/
def setSpecialValuesA (g : Gx) (v : SVTab) : Gx × Bool :=
  match setSpecialValues v with
  | some t => ({ g with sv := t, rsv := t }, true)
  | none => (g.raise Err.duplicateSpecVal, false)

/-- gxfile.cpp:3463-3485 gdxSetReadSpecialValues -/
def setReadSpecialValues (g : Gx) (v : SVTab) : Gx := { g with rsv := v }

/-- gxfile.cpp:686-717 gdxResetSpecialValues -/
def resetSpecialValues (g : Gx) : Gx := { g with sv := SVTab.default, rsv := SVTab.default }

/-- gxfile.cpp:3278-3295 gdxFileInfo: version, compression level -/
def fileInfo (g : Gx) : Int × Int :=
  match g.stat with
  | .notOpen => (0, 0)
  | .read => (g.verRead, g.comprLev)
  | .write => (7, g.comprLev)

/-! ### acronyms -/

/-- gxfile.cpp:2965-2968 gdxAcronymCount -/
def acronymCount (g : Gx) : Int := (g.acros.map fun l => (l.length : Int)).getD 0

/-- gxfile.cpp:2970-2983 gdxAcronymGetInfo: name, text, index -/
def acronymGetInfo (g : Gx) (n : Int) : Res (Option (Str × Str × Int)) := do
  let l ← need g.acros
  if ¬ (1 ≤ n ∧ n ≤ l.length) then pure none else do
  let a ← at1 l n
  let s ← fits 64 a.name
  let t ← fits ssSize a.text
  pure (some (s, t, a.map))

/-- gxfile.cpp:4145-4150 SetNameAndText -/
def Acr.setName (a : Acr) (name text : Str) : Acr := { a with name := name, text := makeGoodExplText text }

/-- gxfile.cpp:2985-3020 gdxAcronymSetInfo. The range check `N >= 1 || N <= size` is always true. -/
def acronymSetInfo (g : Gx) (n : Int) (name text : Str) (idx : Int) : Res (Gx × Bool) := do
  let l ← need g.acros
  let a ← at1 l n
  if g.mode ∈ anyWrite ∨ a.auto then do
    let syms ← need g.names
    let (g, ok) := isGoodNewSymbol g syms l name
    if ok = false then pure (g.raise Err.badAcroName, false)
    else if a.auto then
      if a.readMap = idx then
        pure ({ g with acros := some (l.modify (n.toNat - 1) fun a => { a.setName name text with auto := false }) }, true)
      else .ub
    else if idx ≠ a.map then pure (g.raise Err.badAcroIndex, false)
    else pure ({ g with acros := some (l.modify (n.toNat - 1) fun a => a.setName name text) }, true)
  else if a.readMap ≠ idx then
    if sameText false name a.name = false then pure (g.raise Err.badAcroName, false)
    else if l.any (fun a => a.readMap == idx) then pure (g.raise Err.acroDupeMap, false)
    else pure ({ g with acros := some (l.modify (n.toNat - 1) fun a => { a with readMap := idx }) }, true)
  else pure (g, true)

/-- gxfile.cpp:3022-3027 gdxAcronymNextNr -/
def acronymNextNr (g : Gx) (nv : Int) : Gx × Int := (if nv ≥ 0 then { g with nextAuto := nv } else g, g.nextAuto)

/-- gxfile.cpp:3029-3039 gdxAcronymGetMapping: the same range check -/
def acronymGetMapping (g : Gx) (n : Int) : Res (Int × Int × Bool) := do
  let l ← need g.acros
  let a ← at1 l n
  pure (a.map, a.readMap, a.auto)

/-- Result of the search in gdxAcronymAdd -/
inductive AcrAdd where
  | found (n : Nat) | clash | fresh
  deriving DecidableEq, Repr

/-- gxfile.cpp:3223-3233: the loop, `n` = number of the first entry -/
def acrAddLoop (name : Str) (idx : Int) : Nat → List Acr → AcrAdd
  | _, [] => .fresh
  | n, a :: l =>
    if sameText false a.name name then (if a.map = idx then .found n else .clash)
    else if a.map = idx then .clash
    else acrAddLoop name idx (n + 1) l

/-- gxfile.cpp:3221-3238 gdxAcronymAdd -/
def acronymAdd (g : Gx) (name text : Str) (idx : Int) : Res (Gx × Int) := do
  let l ← need g.acros
  match acrAddLoop name idx 0 l with
  | .found n => pure (g, (n : Int))
  | .clash => pure (g.raise Err.acroBadAddition, -1)
  | .fresh => pure ({ g with acros := some (l ++ [{ Acr.mk' name text idx with readMap := idx }]) }, (l.length : Int) + 1)

/-- "UnknownAcronym" -/
def unknownAcronym : Str := [85, 110, 107, 110, 111, 119, 110, 65, 99, 114, 111, 110, 121, 109]

/-- gxfile.cpp:3245-3258 gdxAcronymName -/
def acronymName (g : Gx) (v : Dbl) : Res (Bool × Str) := do
  let n ← acrIndex v
  if n ≤ 0 then pure (false, []) else do
  let l ← need g.acros
  match acrFind l n with
  | none => pure (true, unknownAcronym ++ intToStr n)
  | some k => do
    let a ← at0 l k
    let s ← fits ssSize a.name
    pure (true, s)

/-! ### readers with callbacks -/

/-- what a callback gets: LastElem, values, AFDim -/
def recOf (g : Gx) (vals : List Dbl) (fd : Nat) : RecOut Int := ⟨g.last.take g.nd, vals, fd⟩

/-- loop over DoRead, collecting the records until the end or until `cont` (a function of the records so far) says stop -/
def readLoop (cont : List (RecOut Int) → Bool) : Nat → Gx → List (RecOut Int) → Res (Gx × List (RecOut Int))
  | 0, _, _ => .ub
  | fuel + 1, g, acc => do
    let (g, o) ← doRead g
    match o with
    | none => pure (g, acc)
    | some (fd, vals) =>
      let acc := acc ++ [recOf g vals fd]
      if cont acc then readLoop cont fuel g acc else pure (g, acc)

/-- raw preparation as used by the functions below. They do not look at the result before calling DoRead: after a failed
    preparation CurSyPtr is null, or (bad marker in the file) the position is wrong: undefined. -/
def prepareRawUnchecked (z : Cz) (g : Gx) (nr : Int) : Res (Gx × Int) := do
  let (g, n) ← prepareRead z g nr (List.replicate 20 domcUnmapped) .rRaw
  if n < 0 then .ub else pure (g, n)

/-- gxfile.cpp:3682-3709 gdxDataReadRawFastEx: success, NrRecs and the records delivered -/
def dataReadRawFastEx (z : Cz) (g : Gx) (nr : Int) (cont : List (RecOut Int) → Bool) :
    Res (Gx × (Bool × Int × List (RecOut Int))) := do
  let (g, n) ← prepareRawUnchecked z g nr
  let (g, rs) ← readLoop cont g.fuel g []
  let (g, _) ← dataReadDone g
  pure (g, (true, n, rs))

/-- gxfile.cpp:3670-3680 gdxDataReadRawFast -/
def dataReadRawFast (z : Cz) (g : Gx) (nr : Int) : Res (Gx × (Bool × Int × List (RecOut Int))) :=
  dataReadRawFastEx z g nr fun _ => true

/-- gxfile.cpp:3626-3640: the fixed positions and their elements; `none` = an unknown element -/
def fixedOf (u : Uel) : Nat → List Str → Option (List (Nat × Int))
  | _, [] => some []
  | d, s :: ss =>
    if s = [] then fixedOf u (d + 1) ss
    else if u.indexOf s < 0 then none
    else (fixedOf u (d + 1) ss).map ((d, u.indexOf s) :: ·)

def matchFixed (fx : List (Nat × Int)) (key : List Int) : Bool := fx.all fun p => key[p.1]? == some p.2

/-- gxfile.cpp:3645-3664: like `readLoop`, only matching records are delivered; with twenty fixed positions the assertion
    at 3648 fails -/
def filtLoop (fx : List (Nat × Int)) (cont : List (RecOut Int) → Bool) :
    Nat → Gx → List (RecOut Int) → Res (Gx × List (RecOut Int))
  | 0, _, _ => .ub
  | fuel + 1, g, acc => do
    let (g, o) ← doRead g
    match o with
    | none => pure (g, acc)
    | some (fd, vals) =>
      if fx.length ≥ maxDim then .ub
      else if matchFixed fx g.last then
        let acc := acc ++ [recOf g vals fd]
        if cont acc then filtLoop fx cont fuel g acc else pure (g, acc)
      else filtLoop fx cont fuel g acc

/-- gxfile.cpp:3622-3664: what follows the preparation with result `n` -/
def filtBody (g : Gx) (n : Int) (filt : List Str) (cont : List (RecOut Int) → Bool) : Res (Gx × (Bool × List (RecOut Int))) :=
  if n < 0 then .ok (g, (false, []))
  else if filt.length ≠ g.nd then .ub else do
  let u ← need g.uel
  match fixedOf u 0 filt with
  | none => pure (g, (false, []))
  | some fx => do
    let (g, rs) ← filtLoop fx cont g.fuel g []
    pure (g, (true, rs))

/-- gxfile.cpp:3617-3668 gdxDataReadRawFastFilt -/
def dataReadRawFastFilt (z : Cz) (g : Gx) (nr : Int) (filt : List Str) (cont : List (RecOut Int) → Bool) :
    Res (Gx × (Bool × List (RecOut Int))) := do
  let (g, n) ← prepareRead z g nr (List.replicate 20 domcUnmapped) .rRaw
  let (g, res) ← filtBody g n filt cont
  let (g, _) ← dataReadDone g
  pure (g, res)

/-! ### elements of one position -/

/-- gxfile.cpp:3141-3163: read everything, mark the elements of position `d` (from 0) -/
def domLoopRead (flt : Option Filt) (d : Nat) : Nat → Gx → IntMap → Res (Gx × IntMap)
  | 0, _, _ => .ub
  | fuel + 1, g, m => do
    let (g, o) ← doRead g
    match o with
    | none => pure (g, m)
    | some (_, vals) => do
      let e ← need g.last[d]?
      match flt with
      | none => do
        let m ← m.set e 1
        domLoopRead flt d fuel g m
      | some f => do
        let u ← need g.uel
        let v ← u.userMap e
        if f.mem v then do
          let m ← m.set e 1
          domLoopRead flt d fuel g m
        else domLoopRead flt d fuel (addErrDom g (g.last.modify d (- ·)) vals) m

/-- the numbers 1 .. highest that are marked -/
def marked (m : IntMap) : List Int :=
  (List.range m.highest.toNat).filterMap fun (n : Nat) => if m.get ((n : Int) + 1) = 1 then some ((n : Int) + 1) else none

/-- gxfile.cpp:3175-3183: a user number for each element -/
def numberAll : Uel → List Int → Res (Uel × List (Int × Int))
  | u, [] => .ok (u, [])
  | u, e :: es => do
    let (u, v) ← u.newUsrUel e
    let (u, l) ← numberAll u es
    pure (u, (v, e) :: l)

/-- insertion of a (user number, element) pair behind the pairs with smaller or equal user number -/
def insPair (p : Int × Int) : List (Int × Int) → List (Int × Int)
  | [] => [p]
  | q :: qs => if q.1 < p.1 then q :: insPair p qs else p :: q :: qs

/-- TTblGamsData::Sort of the pairs by user number. (The order of pairs with equal user numbers depends on std::sort and
    is not modelled faithfully; the user numbers are distinct unless gdxUELRegisterMap gave one number to two elements.) -/
def sortPairs : List (Int × Int) → List (Int × Int)
  | [] => []
  | p :: ps => insPair p (sortPairs ps)

/-- gxfile.cpp:3123: the filter, if one is asked for -/
def domFilter (l : List Filt) (flt : Int) : Option Filt := if flt = domcExpand then none else findFilter l flt

/-- gxfile.cpp:3117-3187 gdxGetDomainElements: success, NrElem and the (element, user number) pairs given to the callback;
    `cb`: is there a callback? -/
def getDomainElements (z : Cz) (g : Gx) (nr dimPos flt : Int) (cb : Bool) : Res (Gx × (Bool × Int × List (Int × Int))) := do
  let syms ← need g.names
  if ¬ (1 ≤ nr ∧ nr ≤ syms.length) then pure (g.raise Err.badSymbolIndex, (false, 0, [])) else do
  let s ← at1 syms nr
  if s.dim = 0 then pure (g, (false, 0, []))
  else if ¬ (1 ≤ dimPos ∧ dimPos ≤ s.dim) then pure (g.raise Err.badDimension, (false, 0, [])) else do
  let filters ← need g.filters
  let f := domFilter filters flt
  if flt ≠ domcExpand ∧ f = none then pure (g.raise Err.unknownFilter, (false, 0, [])) else do
  let (g, _) ← prepareRawUnchecked z g nr
  let (g, m) ← domLoopRead f (dimPos.toNat - 1) g.fuel g IntMap.empty
  let (g, _) ← dataReadDone g
  let es := marked m
  if cb = false then pure (g, (true, es.length, []))
  else do
    let u ← need g.uel
    let (u, ps) ← numberAll u es
    pure ({ g with uel := some u }, (true, es.length, (sortPairs ps).map fun p => (p.2, p.1)))

/-- gxfile.cpp:3487-3520: the loop of gdxSymbIndxMaxLength; `lens` = LengthInfo -/
def lenLoop (u : Uel) : Nat → Gx → List Int → Res (Gx × List Int)
  | 0, _, _ => .ub
  | fuel + 1, g, lens => do
    let (g, o) ← doRead g
    match o with
    | none => pure (g, lens)
    | some (fd, _) =>
      let upd := List.zipWith (fun e l => match at1 u.ents e with
        | .ok s => if (s.1.length : Int) > l then (s.1.length : Int) else l
        | .ub => l) (g.last.drop (fd - 1)) (lens.drop (fd - 1))
      lenLoop u fuel g (lens.take (fd - 1) ++ upd)

/-- gxfile.cpp:3500-3515: only for a symbol with positions -/
def lenBody (u : Uel) (g : Gx) : Res (Gx × List Int) :=
  if g.curDim > 0 then lenLoop u g.fuel g (List.replicate g.nd 0) else .ok (g, [])

/-- gxfile.cpp:3487-3520 gdxSymbIndxMaxLength: result and LengthInfo (for the positions of the symbol) -/
def symbIndxMaxLength (z : Cz) (g : Gx) (nr : Int) : Res (Gx × (Int × List Int)) := do
  let (g, ok) := g.chk [.rInit]
  if ok = false then pure (g, (0, [])) else do
  let syms ← need g.names
  if nr < 0 ∨ nr > syms.length then pure (g, (0, [])) else do
  let (g, r) ← dataReadRawStart z g nr
  if r.1 = false then pure (g, (0, [])) else do
  let u ← need g.uel
  let (g, lens) ← lenBody u g
  let (g, _) ← dataReadDone g
  pure (g, (lens.foldl max 0, lens))

/-! ### slices -/

/-- gxfile.cpp:3311-3313: mark the elements of every position -/
def markAll : List IntMap → List Int → Res (List IntMap)
  | m :: ms, e :: es => do
    let m ← m.set e 1
    let r ← markAll ms es
    pure (m :: r)
  | ms, _ => .ok ms

def sliceLoop : Nat → Gx → List IntMap → Res (Gx × List IntMap)
  | 0, _, _ => .ub
  | fuel + 1, g, ms => do
    let (g, o) ← doRead g
    match o with
    | none => pure (g, ms)
    | some _ => do
      let ms ← markAll ms (g.last.take g.nd)
      sliceLoop fuel g ms

/-- gxfile.cpp:3319-3330: number the marked elements from 0; `n` = next index to look at, `k` = how many are left -/
def numberMarks : Nat → Int → Int → IntMap → IntMap → Res (IntMap × IntMap × Int)
  | 0, _, cnt, ix, rev => .ok (ix, rev, cnt)
  | k + 1, n, cnt, ix, rev =>
    if ix.get n ≥ 0 then do
      let ix ← ix.set n cnt
      let rev ← rev.set cnt n
      numberMarks k (n + 1) (cnt + 1) ix rev
    else numberMarks k (n + 1) cnt ix rev

def numberMarksAll : List IntMap → Res (List IntMap × List IntMap × List Int)
  | [] => .ok ([], [], [])
  | m :: ms => do
    let (ix, rev, c) ← numberMarks (m.highest.toNat + 1) 0 0 m IntMap.empty
    let (a, b, cs) ← numberMarksAll ms
    pure (ix :: a, rev :: b, c :: cs)

/-- gxfile.cpp:3297-3336 gdxDataReadSliceStart: the element counts of the positions -/
def dataReadSliceStart (z : Cz) (g : Gx) (nr : Int) : Res (Gx × List Int) := do
  let (g, _) ← prepareRawUnchecked z { g with sliceSy := nr } nr
  let (g, ms) ← sliceLoop g.fuel g (List.replicate g.nd IntMap.empty)
  let (g, _) ← dataReadDone g
  let (ix, rev, cs) ← numberMarksAll ms
  pure ({ g with sliceIdx := ix ++ g.sliceIdx.drop g.nd, sliceRev := rev ++ g.sliceRev.drop g.nd, mode := .rSlice }, cs)

/-- gxfile.cpp:3344-3358: the elements that are fixed (-1 = free) -/
def sliceElemNrs (u : Uel) (filt : List Str) : List Int := filt.map fun s => if s = [] then -1 else u.indexOf s

/-- gxfile.cpp:3369-3377: the slice indices of the free positions -/
def sliceKey : List Int → List IntMap → List Int → List Int
  | n :: ns, m :: ms, e :: es => if n = -1 then m.get e :: sliceKey ns ms es else sliceKey ns ms es
  | _, _, _ => []

/-- does the record match the fixed positions? -/
def sliceMatch : List Int → List Int → Bool
  | n :: ns, e :: es => (n == -1 || n == e) && sliceMatch ns es
  | _, _ => true

/-- gxfile.cpp:3364-3379: the records given to the callback -/
def sliceRead (ns : List Int) (ms : List IntMap) : Nat → Gx → Res (Gx × List (List Int × List Dbl))
  | 0, _ => .ub
  | fuel + 1, g => do
    let (g, o) ← doRead g
    match o with
    | none => pure (g, [])
    | some (_, vals) => do
      let (g', rs) ← sliceRead ns ms fuel g
      if sliceMatch ns (g.last.take g.nd) then pure (g', (sliceKey ns ms g.last, vals) :: rs) else pure (g', rs)

/-- gxfile.cpp:3338-3380 gdxDataReadSlice: success, Dimen and the records given to the callback -/
def dataReadSlice (z : Cz) (g : Gx) (filt : List Str) : Res (Gx × (Bool × Int × List (List Int × List Dbl))) := do
  let (g, ok) := g.chk [.rSlice]
  if ok = false then pure (g, (false, 0, []))
  else if filt.length ≠ g.nd then .ub else do
  let u ← need g.uel
  let dimen : Int := (filt.filter (· == [])).length
  let ns := sliceElemNrs u filt
  let g := { g with sliceElems := filt ++ g.sliceElems.drop g.nd, mode := .rInit }
  if (List.zip filt ns).any (fun p => p.1 != [] && decide (p.2 < 0)) then pure (g, (false, dimen, [])) else do
  let (g, n) ← prepareRead z g g.sliceSy (List.replicate 20 domcUnmapped) .rSlice
  if n < 0 then .ub else do
  let (g, rs) ← sliceRead ns g.sliceIdx g.fuel g
  pure (g, (true, dimen, rs))

/-- gxfile.cpp:3382-3406: the strings of the positions; `keys` = the slice indices of the free positions. A fixed string
    or an element string that does not fit, and a missing slice index, are undefined. -/
def sliceStrs (u : Uel) : List Str → List IntMap → List Int → Res (List Str)
  | s :: ss, m :: ms, keys =>
    if s ≠ [] then do
      let t ← fits 64 s
      let r ← sliceStrs u ss ms keys
      pure (t :: r)
    else match keys with
    | [] => .ub
    | k :: ks => do
      let t ← if m.get k < 0 then pure [63] else do
        let t ← u.str (m.get k)
        fits 64 t
      let r ← sliceStrs u ss ms ks
      pure (t :: r)
  | _, _, _ => .ok []

/-- gxfile.cpp:3382-3406 gdxDataSliceUELS -/
def dataSliceUELS (g : Gx) (keys : List Int) : Res (Gx × Option (List Str)) := do
  let (g, ok) := g.chk [.rSlice]
  if ok = false then pure (g, none) else do
  let u ← need g.uel
  let r ← sliceStrs u (g.sliceElems.take g.nd) g.sliceRev keys
  pure (g, some r)

end Gdx
