import Verif.Model.Uel
import Verif.Model.Acro
import Verif.Model.BitArr
import Verif.Model.Rec
import Verif.Model.RadixSort
import Verif.Model.PFile

/-!
The state of a GDX object: `/repo/src/gdx.hpp` 1746-1802 (private members of TGXFileObj), `/repo/src/gxfile.hpp` 60-235.

Left out: trace output (TraceLevel, TraceStr, MajContext, LastRepError only influence what is printed), file names,
memory exhaustion, I/O errors of the operating system (GetLastIOResult is 0 once a file is open).
-/

namespace Gdx

/-- gxfile.hpp:168-189 TgxFileMode -/
inductive Mode where
  | notOpen | rInit | wInit | wDomRaw | wDomMap | wDomStr | wRaw | wMap | wStr | rawElem | mapElem | strElem
  | rRaw | rMap | rMapR | rStr | rFilter | rSlice
  deriving DecidableEq, Repr

/-- gdx.hpp:1750-1755 fstatus -/
inductive FStat where
  | notOpen | read | write
  deriving DecidableEq, Repr

/-! data types (gclgms.h GMS_DT_*): 0 set, 1 parameter, 2 variable, 3 equation, 4 alias -/
def dtSet : Nat := 0
def dtPar : Nat := 1
def dtVar : Nat := 2
def dtEqu : Nat := 3
def dtAlias : Nat := 4

/-- gxfile.hpp:78 DataTypSize -/
def dataTypSize (t : Nat) : Nat := if t = 0 ∨ t = 1 then 1 else if t = 2 ∨ t = 3 then 5 else 0

/-- GLOBAL_MAX_INDEX_DIM -/
def maxDim : Nat := 20

/-- gxfile.hpp:129-144 TgdxSymbRecord. SSyNr is the position in the list; SScalarFrst is kept in the object state. -/
structure Sym where
  name : Str
  pos : Int := 0
  dim : Int
  typ : Nat
  userInfo : Int
  dataCount : Int := 0
  errors : Int := 0
  setText : Bool := false
  expl : Str := []
  compr : Bool := false
  domSyms : Option (List Int) := none
  domStrs : Option (List Int) := none
  /-- SCommentsList; `none` = a string without terminating 0 in its buffer (longer than 255 bytes) -/
  comments : List (Option Str) := []
  bitmap : Option BitArr := none
  deriving DecidableEq, Repr

/-- gxfile.hpp:89-113 TDFilter -/
structure Filt where
  nr : Int
  maxUel : Int
  map : BitArr
  sorted : Bool
  deriving DecidableEq, Repr

/-- gxfile.hpp:104-107 InFilter -/
def Filt.mem (f : Filt) (v : Int) : Bool := decide (0 ≤ v) && decide (v ≤ f.maxUel) && f.map.get v

/-- CurSyPtr: null, the symbol with this number (from 1), or a pointer to freed memory -/
inductive Cur where
  | none
  | sym (n : Nat)
  | dangling
  deriving DecidableEq, Repr

/-- gxfile.hpp:117-130: action of one index position while reading (DomainList); a filter is a pointer to an entry of the
    filter list, which is not changed during a read -/
inductive DAct where
  | unmapped | strict | expand
  | filter (f : Filt)
  deriving DecidableEq, Repr

/-- The object. -/
structure Gx where
  /-- FFile is not null -/
  opened : Bool := false
  /-- content of the file on disk (kept after closing) -/
  file : List UInt8 := []
  /-- ghost: the write operations performed on the file since it was created, in order: position and bytes -/
  log : List (Nat × List UInt8) := []
  mode : Mode := .notOpen
  modeAft : Mode := .notOpen
  stat : FStat := .notOpen
  comprLev : Int := 0
  comprOut : Bool := false
  uncompr : Bool := false
  uel : Option Uel := none
  /-- SetTextList: string and node number -/
  texts : Option (List (Str × Int)) := none
  mapText : Option (List Int) := none
  curDim : Int := 0
  last : List Int := []
  prev : List Int := List.replicate 20 0
  /-- MinElem, MaxElem -/
  bounds : List (Int × Int) := []
  /-- LastStrElem; `none` = first byte is 127 (nothing cached) -/
  lastStr : List (Option Str) := []
  dataSize : Nat := 0
  names : Option (List Sym) := none
  domStrs : Option (List Str) := none
  sort : Option (LData (List Dbl)) := none
  /-- ReadPtr: `none` = nullopt, else the records from the one it points to on -/
  readPtr : Option (List (LItem (List Dbl))) := none
  errList : Option (List (List Int × List Dbl)) := none
  cur : Cur := .none
  scalarFrst : Bool := false
  errCnt : Int := 0
  errTotal : Int := 0
  lastErr : Int := 0
  /-- ghost: all errors raised (SetError) since InitErrors -/
  raised : List Int := []
  /-- ghost: how many of them were raised before the last gdxGetLastError -/
  taken : Nat := 0
  filters : Option (List Filt) := none
  doms : List DAct := []
  storeDom : Bool := true
  allowBogus : Bool := true
  acrNaN : Bool := false
  sv : SVTab := SVTab.default
  rsv : SVTab := SVTab.default
  verRead : Int := 0
  producer : Str := []
  producer2 : Str := []
  fsId : Str := []
  majorPos : Nat := 0
  nextWrite : Int := 0
  dataCount : Int := 0
  nrMapped : Int := 0
  /-- bytes of the data block being written, not yet in the file -/
  blk : List UInt8 := []
  /-- decompressed bytes from the current read position on -/
  rest : List UInt8 := []
  sliceIdx : List IntMap := List.replicate 20 IntMap.empty
  sliceRev : List IntMap := List.replicate 20 IntMap.empty
  sliceSy : Int := 0
  sliceElems : List Str := List.replicate 20 []
  deltaRead : Nat := 0
  acros : Option (List Acr) := none
  /-- WrBitMaps: number of the symbol whose bit map is used -/
  wrBits : List (Option Nat) := []
  rdUniverse : Bool := false
  universeNr : Int := 0
  uelOrig : Int := 0
  autoConvert : Int := 1
  nextAuto : Int := 0
  appendActive : Bool := false
  deriving DecidableEq, Repr

/-- a new object (gxfile.cpp:671-675) -/
def Gx.new : Gx := {}

/-! ### error numbers (gxfile.cpp:160-240) -/
namespace Err
def noFile : Int := -100000
def badMode : Int := -100002
def badDimension : Int := -100003
def badElementIndex : Int := -100004
def badSymbolIndex : Int := -100005
def duplicateSymbol : Int := -100007
def dataDuplicate : Int := -100009
def unknownFilter : Int := -100010
def badIdentFormat : Int := -100012
def uelConflict : Int := -100013
def duplicateSpecVal : Int := -100014
def badErrorRecord : Int := -100015
def badUelStr : Int := -100017
def badFilterNr : Int := -100021
def badFilterIndx : Int := -100022
def filterUnmapped : Int := -100023
def rawNotSorted : Int := -100025
def badDataMarkerData : Int := -100029
def badDataMarkerDim : Int := -100030
def openBoi : Int := -100031
def openFileHeader : Int := -100032
def openFileVersion : Int := -100033
def openFileMarker : Int := -100034
def openSymbolMarker1 : Int := -100035
def openSymbolMarker2 : Int := -100036
def openUelMarker1 : Int := -100037
def openUelMarker2 : Int := -100038
def openTextMarker1 : Int := -100039
def openTextMarker2 : Int := -100040
def openAcroMarker1 : Int := -100045
def openAcroMarker2 : Int := -100046
def badAcroIndex : Int := -100047
def badAcroNumber : Int := -100048
def badAcroName : Int := -100049
def acroDupeMap : Int := -100050
def acroBadAddition : Int := -100051
def unknownDomain : Int := -100052
def badDomain : Int := -100053
def noDomainData : Int := -100054
def aliasSetExpected : Int := -100055
def badDataType : Int := -100056
def noSymbolForComment : Int := -100057
def domainViolation : Int := -100058
def fileAlreadyOpen : Int := -100059
def fileTooOldForAppend : Int := -100060
def openDomsMarker1 : Int := -100061
def openDomsMarker2 : Int := -100062
def openDomsMarker3 : Int := -100063
end Err

namespace Gx

/-- gxfile.cpp:1162-1168 SetError (and ReportError, ErrorCondition 817-836) -/
def raise (g : Gx) (n : Int) : Gx :=
  { g with
    lastErr := if g.lastErr = 0 then n else g.lastErr
    errCnt := g.errCnt + 1
    errTotal := g.errTotal + 1
    raised := g.raised ++ [n] }

/-- gxfile.cpp:665-669 InitErrors -/
def initErrors (g : Gx) : Gx :=
  { g with errCnt := 0, errTotal := 0, lastErr := 0, raised := [], taken := 0 }

/-- gxfile.cpp:791-803 MajorCheckMode, 838-877 CheckMode: is the mode allowed? If not, ERR_BADMODE. -/
def chk (g : Gx) (ms : List Mode) : Gx × Bool :=
  if g.mode ∈ ms then (g, true) else (g.raise Err.badMode, false)

/-- the table of symbols is given up: CurSyPtr no longer points into it. (After a failed open the old records are leaked,
    not freed; using such a pointer is treated as undefined as well.) -/
def dropCur (g : Gx) : Gx := { g with cur := match g.cur with | .none => .none | _ => .dangling }

/-- the dimension as a number of loop passes -/
def nd (g : Gx) : Nat := g.curDim.toNat

/-- physical write of `bs` at position `p` -/
def put (g : Gx) (p : Nat) (bs : List UInt8) : Gx :=
  { g with file := splice g.file p bs, log := g.log ++ [(p, bs)] }

end Gx

/-- The compressor used for a stretch of the file that starts and ends with a flush (`Model/BufStream`, C20). `enc` gives
    the bytes in the file; `dec` gives the bytes that reading from there on yields (as far as they can be read). -/
structure Cz where
  enc : List UInt8 → List UInt8
  dec : List UInt8 → List UInt8

/-- what is written is what is read, whatever follows in the file -/
def Cz.Good (z : Cz) : Prop := ∀ x t, ∃ u, z.dec (z.enc x ++ t) = x ++ u

/-- no compression at all, for examples -/
def Cz.id : Cz := { enc := fun x => x, dec := fun x => x }

/-- bytes in the file for a stretch written with compression flag `c` -/
def Cz.wr (z : Cz) (c : Bool) (x : List UInt8) : List UInt8 := if c then z.enc x else x
/-- bytes read with compression flag `c` -/
def Cz.rd (z : Cz) (c : Bool) (f : List UInt8) : List UInt8 := if c then z.dec f else f

/-- GMS_SSSIZE -/
def ssSize : Nat := 256

/-- utils.cpp trimRight as used by the API: when something is cut off, the result is copied into a 256-byte buffer -/
def trimR (s : Str) : Res Str :=
  let t := trimRight s
  if t.length < s.length ∧ t.length > 255 then .ub else .ok t

/-- update the current symbol; a null or dangling pointer is undefined -/
def Gx.modCur (g : Gx) (f : Sym → Sym) : Res Gx :=
  match g.cur, g.names with
  | .sym n, some l => if 1 ≤ n ∧ n ≤ l.length then .ok { g with names := some (l.modify (n - 1) f) } else .ub
  | _, _ => .ub

/-- the current symbol -/
def Gx.curSym (g : Gx) : Res Sym :=
  match g.cur, g.names with
  | .sym n, some l => at1 l n
  | _, _ => .ub

/-- NameList->IndexOf: number from 1, or -1 -/
def symIndex (l : List Sym) (s : Str) : Int := indexOf1 false s (l.map Sym.name)

end Gdx
