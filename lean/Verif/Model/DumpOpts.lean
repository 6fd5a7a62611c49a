import Verif.Model.DiffOpts
import Verif.Model.DumpGams

/-!
The options of gdxdump: `/repo/src/tools/gdxdump/gdxdump.cpp` NextParam 953-980 and main 1002-1333, up to the first call of the library. Whether a file exists is a
parameter. The messages are not modelled.
-/

namespace Gdx.DumpOpts
open Gdx.CmdPar Gdx.Dump
open Gdx.DiffOpts (str short uEqual checkFile)

/-- ParamStr from ParamNr on, and ParamHold -/
structure PSt where
  rest : List Str
  hold : Str := []

/-- gdxdump.cpp:976-979 -/
def noQuotes (s : Str) : Str := if s = [39, 39] then [] else s

/-- gdxdump.cpp:953-980 NextParam -/
def nextParam (p : PSt) : Str × PSt :=
  if p.hold ≠ [] then (noQuotes p.hold, ⟨p.rest, []⟩)
  else match p.rest with
    | [] => ([], p)
    | a :: t =>
      if 61 ∈ a then (noQuotes (a.takeWhile (· ≠ 61) ++ [61]), ⟨t, (a.dropWhile (· ≠ 61)).tail⟩)
      else match t with
        | (61 :: v) :: t => (noQuotes (a ++ [61]), ⟨t, v⟩)
        | _ => (noQuotes a, ⟨t, []⟩)

inductive Key
  | symb | uelTable | delim | decSep | symbols | domainInfo | setText | asSet | asSetDI | noHeader | noData | allFields | csvText | format | dformat | output
  | ide | filterDef | cdim | version | eps | na | pinf | minf | undf | zero | header
  deriving DecidableEq, Repr

/-- the options that call NextParam for their value: their names may end with = -/
def Key.valued : Key → Bool
  | .symbols | .domainInfo | .setText | .asSet | .asSetDI | .noHeader | .noData | .allFields | .csvText | .version => false
  | _ => true

/-- gdxdump.cpp:1059-1290: the names; they are all different, so that their order does not matter -/
def table : List (Str × Key) :=
  [(str "SYMB", .symb), (str "UELTABLE", .uelTable), (str "DELIM", .delim), (str "DECIMALSEP", .decSep), (str "SYMBOLS", .symbols),
   (str "DOMAININFO", .domainInfo), (str "SETTEXT", .setText), (str "SYMBOLSASSET", .asSet), (str "SYMBOLSASSETDI", .asSetDI), (str "NOHEADER", .noHeader),
   (str "NODATA", .noData), (str "CSVALLFIELDS", .allFields), (str "CSVSETTEXT", .csvText), (str "FORMAT", .format), (str "DFORMAT", .dformat),
   (str "OUTPUT", .output), (str "IDE", .ide), (str "FILTERDEF", .filterDef), (str "CDIM", .cdim), (str "-V", .version), (str "-VERSION", .version),
   (str "EPSOUT", .eps), (str "NAOUT", .na), (str "PINFOUT", .pinf), (str "MINFOUT", .minf), (str "UNDFOUT", .undf), (str "ZEROOUT", .zero),
   (str "HEADER", .header)]

/-- which option the word is, in capital letters -/
def keyOf (s : Str) : Option Key :=
  table.findSome? fun x => if s = x.1 ∨ (x.2.valued = true ∧ s = x.1 ++ [61]) then some x.2 else none

inductive OFmt
  | normal | gamsbas | csv
  deriving DecidableEq, Repr

/-- the variables of main and the global ones; a Delim or DecimalSep of 0 is `none` here; dbl_none is `none` -/
structure Conf where
  symb : Str := []
  uels : Str := []
  delim : Option UInt8 := none
  sep : Option UInt8 := none
  listAll : Bool := false
  domInfo : Bool := false
  setText : Bool := false
  asSet : Bool := false
  asSetDI : Bool := false
  showHdr : Bool := true
  showData : Bool := true
  allFields : Bool := false
  csvText : Bool := false
  fmt : Option OFmt := none
  dfmt : Option DFmt := none
  out : Str := []
  ide : Bool := false
  filter : Bool := true
  cdim : Bool := false
  version : Bool := false
  eps : Option Str := none
  na : Option Str := none
  pinf : Option Str := none
  minf : Option Str := none
  undf : Option Str := none
  zero : Option Str := none
  header : Option Str := none

/-- `Y`, `y` or `1` at the front -/
def isYes (s : Str) : Bool := s.head? = some 89 || s.head? = some 121 || s.head? = some 49

/-- an option without value -/
def setFlag (c : Conf) : Key → Conf
  | .symbols => { c with listAll := true }
  | .domainInfo => { c with domInfo := true }
  | .setText => { c with setText := true }
  | .asSet => { c with asSet := true }
  | .asSetDI => { c with asSetDI := true }
  | .noHeader => { c with showHdr := false }
  | .noData => { c with showData := false }
  | .allFields => { c with allFields := true }
  | .csvText => { c with csvText := true }
  | .version => { c with version := true }
  | _ => c

/-- the tests for an option that is there already -/
def dup (c : Conf) : Key → Bool
  | .symb => !c.symb.isEmpty
  | .uelTable => !c.uels.isEmpty
  | .delim => c.delim.isSome
  | .decSep => c.sep.isSome
  | .format => c.fmt.isSome
  | .dformat => c.dfmt.isSome
  | .output => !c.out.isEmpty
  | _ => false

/-- the values that go into a ShortString -/
def Key.short : Key → Bool
  | .symb | .delim | .decSep | .format | .dformat | .ide | .filterDef | .cdim => true
  | _ => false

/-- the value of an option; `none` if it is an error -/
def setVal (c : Conf) (k : Key) (v : Str) : Option Conf :=
  match k with
  | .symb => if v = [] then none else some { c with symb := v }
  | .uelTable => if v = [] then none else some { c with uels := v }
  | .delim =>
    if upper v = str "TAB" then some { c with delim := some 9 }
    else if upper v = str "COMMA" then some { c with delim := some 44 }
    else if upper v = str "PERIOD" then some { c with delim := some 46 }
    else if upper v = str "BLANK" then some { c with delim := some 32 }
    else if upper v = str "SEMICOLON" then some { c with delim := some 59 }
    else none
  | .decSep =>
    if upper v = str "PERIOD" then some { c with sep := some 46 }
    else if upper v = str "COMMA" then some { c with sep := some 44 }
    else none
  | .format =>
    if upper v = str "NORMAL" then some { c with fmt := some .normal }
    else if upper v = str "GAMSBAS" then some { c with fmt := some .gamsbas }
    else if upper v = str "CSV" then some { c with fmt := some .csv }
    else none
  | .dformat =>
    if upper v = str "NORMAL" then some { c with dfmt := none }
    else if upper v = str "HEXBYTES" then some { c with dfmt := some .hexBytes }
    else if upper v = str "HEXPONENTIAL" then some { c with dfmt := some .hexponential }
    else none
  | .output => if v = [] then none else some { c with out := v }
  | .ide => if v = [] then none else some { c with ide := isYes v }
  | .filterDef => if v = [] then none else some { c with filter := isYes v }
  | .cdim => if v = [] then none else some { c with cdim := isYes v }
  | .eps => some { c with eps := some v }
  | .na => some { c with na := some v }
  | .pinf => some { c with pinf := some v }
  | .minf => some { c with minf := some v }
  | .undf => some { c with undf := some v }
  | .zero => some { c with zero := some v }
  | .header => some { c with header := some v }
  | _ => some c

/-- gdxdump.cpp:1056-1294: `none` if it ends with an error. Every round takes a parameter or what is held back from one. -/
def loop : Nat → Conf → PSt → Res (Option Conf)
  | 0, _, _ => .ub
  | f + 1, c, p =>
    if p.rest = [] then .ok (some c)
    else do
      let s ← short (nextParam p).1
      match keyOf (upper s) with
      | none => pure none
      | some k =>
        if k.valued = false then loop f (setFlag c k) (nextParam p).2
        else if dup c k = true then pure none
        else do
          let (v, q) := nextParam (nextParam p).2
          let v ← if k.short = true then short v else pure v
          match setVal c k v with
          | none => pure none
          | some c => loop f c q

/-- what is written after the acronyms and the elements -/
inductive Act
  | uelsCsv | symbols | asSet (di : Bool) | domInfo | setText | csv (symb : Str) | one (symb : Str) | all
  deriving DecidableEq, Repr

/-- what the program goes on with: InputFile, OutputName, UsingIDE, outFormat, UELSetName, what is to be done, and the options of the
    functions that write -/
structure Run where
  input : Str
  out : Str
  ide : Bool
  fmt : OFmt
  uels : Str
  act : Act
  opt : GOpt

inductive Outcome
  | audit
  | usage
  | fail (code : Nat)
  | version (input : Str)
  | run (r : Run)

/-- gdxdump.cpp:1415-1450: which of the functions is called -/
def actOf (c : Conf) (fmt : OFmt) : Act :=
  if c.uels ≠ [] ∧ fmt = .csv then .uelsCsv
  else if c.listAll = true then .symbols
  else if c.asSet = true then .asSet false
  else if c.asSetDI = true then .asSet true
  else if c.domInfo = true then .domInfo
  else if c.setText = true then .setText
  else if c.symb ≠ [] then (if fmt = .csv then .csv c.symb else .one c.symb)
  else .all

/-- gdxdump.cpp:1302-1357 -/
def finish (ex : Str → Bool) (dtoa : Dbl → DblStr.Digits) (input : Str) (c : Conf) : Outcome :=
  let fmt := c.fmt.getD .normal
  let delim := c.delim.getD (if fmt = .csv then 44 else 46)
  let sep := c.sep.getD 46
  let data := if fmt = .csv then true else c.showData
  if delim = sep ∧ delim ≠ 46 then .fail 1
  else if fmt = .csv ∧ c.symb = [] then .fail 1
  else
    let input := checkFile ex input
    if ex input = false then .fail 2
    else if c.version = true then .version input
    else
      let hdr := if c.symb = [] then true else c.showHdr
      let hdr := if fmt = .gamsbas then false else hdr
      let data := if fmt = .gamsbas then true else data
      .run { input := input, out := c.out, ide := c.ide, fmt := fmt, uels := c.uels, act := actOf c fmt, opt := {
        dtoa := dtoa, delim := delim, sep := sep, dfmt := c.dfmt.getD .normal, eps := c.eps, na := c.na, pin := c.pinf, min := c.minf, und := c.undf,
        zero := c.zero, header := c.header, showHdr := hdr, cdim := c.cdim, allFields := c.allFields, setText := c.csvText, filter := c.filter, data := data } }

/-- gdxdump.cpp:1002-1357 -/
def main (ex : Str → Bool) (dtoa : Dbl → DblStr.Digits) (args : List Str) : Res Outcome :=
  match args with
  | [] => .ok .usage
  | a :: t =>
    if uEqual a (str "AUDIT") = true then .ok .audit
    else do
      match ← loop (2 * t.length + 1) {} ⟨t, []⟩ with
      | none => pure .usage
      | some c => pure (finish ex dtoa a c)

end Gdx.DumpOpts
