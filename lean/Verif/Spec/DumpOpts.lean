import Verif.Model.DumpOpts
import Verif.Spec.DiffOpts

/-! What the arguments of gdxdump mean, from its usage text (gdxdump.cpp:911-947). -/

namespace Gdx.DumpOpts
open Gdx.CmdLine Gdx.Spec
open Gdx.DiffOpts (str InName)
open Gdx.Dump (DFmt)

/-- the options without a value, as the text of Usage has them -/
def flags : List (String × Key) :=
  [("-V", .version), ("-Version", .version), ("NoHeader", .noHeader), ("NoData", .noData), ("CSVAllFields", .allFields), ("CSVSetText", .csvText),
   ("Symbols", .symbols), ("DomainInfo", .domainInfo), ("SymbolsAsSet", .asSet), ("SymbolsAsSetDI", .asSetDI), ("SetText", .setText)]

/-- the options with a value; IDE is not in the text -/
def options : List (String × Key) :=
  [("Output", .output), ("Symb", .symb), ("UelTable", .uelTable), ("Delim", .delim), ("DecimalSep", .decSep), ("Format", .format), ("dFormat", .dformat),
   ("CDim", .cdim), ("FilterDef", .filterDef), ("EpsOut", .eps), ("NaOut", .na), ("PinfOut", .pinf), ("MinfOut", .minf), ("UndfOut", .undf),
   ("ZeroOut", .zero), ("Header", .header), ("IDE", .ide)]

def IsFlag (w : Text) (k : Key) : Prop := ∃ n, (n, k) ∈ flags ∧ SameNoCase w (str n)
def IsOpt (w : Text) (k : Key) : Prop := ∃ n, (n, k) ∈ options ∧ SameNoCase w (str n)

/-- no equal sign at the start of the next argument -/
def Free (args : List Text) : Prop := ∀ a, args.head? = some a → a.head? ≠ some 61

/-- two quotes are an empty value -/
def Quoted (v q : Text) : Prop := (v = str "''" ∧ q = []) ∨ (v ≠ str "''" ∧ q = v)

/-- How an option `w` and its value can be given by the first arguments: `w=v`, `w= v`, `w v`, `w =v`, `w = v`; `r` are the other arguments. At the end the value may be missing:
    it is empty. -/
inductive Form (w : Text) : List Text → Text → List Text → Prop
  | joined {v r} : v ≠ [] → Form w [w ++ 61 :: v] v r
  | after {v r} : 61 ∉ v → Free r → Form w [w ++ [61], v] v r
  | word {v r} : 61 ∉ v → Free r → Form w [w, v] v r
  | before {v r} : v ≠ [] → Form w [w, 61 :: v] v r
  | apart {v r} : 61 ∉ v → Free r → Form w [w, [61], v] v r
  | last : Form w [w] [] []
  | lastEq : Form w [w ++ [61]] [] []
  | lastApart : Form w [w, [61]] [] []

/-- the next argument is no option -/
inductive Unknown : List Text → Prop
  | word {w r} : 61 ∉ w → Free r → (∀ k, ¬ IsFlag w k) → (∀ k, ¬ IsOpt w k) → Unknown (w :: r)
  | value {w v r} : 61 ∉ w → (∀ k, ¬ IsOpt w k) → Unknown ((w ++ 61 :: v) :: r)
  | apart {w v r} : 61 ∉ w → (∀ k, ¬ IsOpt w k) → Unknown (w :: (61 :: v) :: r)

/-- the options and values of the arguments after the first one, and whether there is an argument that is no option -/
inductive Means : List Text → List (Key × Text) → Bool → Prop
  | nil : Means [] [] false
  | flag {w k args l u} : IsFlag w k → Free args → Means args l u → Means (w :: args) ((k, []) :: l) u
  | opt {w k a v q args l u} : IsOpt w k → Form w a v args → Quoted v q → Means args l u → Means (a ++ args) ((k, q) :: l) u
  | unknown {args} : Unknown args → Means args [] true

def Given (l : List (Key × Text)) (k : Key) : Prop := ∃ v, (k, v) ∈ l

/-- the last value -/
def Last (l : List (Key × Text)) (k : Key) (v : Text) : Prop := ∃ l₁ l₂, l = l₁ ++ (k, v) :: l₂ ∧ ¬ Given l₂ k

/-- the only value, nothing without one -/
def One (l : List (Key × Text)) (k : Key) (v : Text) : Prop := (¬ Given l k ∧ v = []) ∨ (k, v) ∈ l

def Yes (v : Text) : Prop := SameNoCase v (str "Y")
def No (v : Text) : Prop := SameNoCase v (str "N")

def DelimName (v : Text) (c : UInt8) : Prop :=
  (SameNoCase v (str "period") ∧ c = 46) ∨ (SameNoCase v (str "comma") ∧ c = 44) ∨ (SameNoCase v (str "tab") ∧ c = 9) ∨ (SameNoCase v (str "blank") ∧ c = 32) ∨
  (SameNoCase v (str "semicolon") ∧ c = 59)

def SepName (v : Text) (c : UInt8) : Prop := (SameNoCase v (str "period") ∧ c = 46) ∨ (SameNoCase v (str "comma") ∧ c = 44)

def FmtName (v : Text) (f : OFmt) : Prop :=
  (SameNoCase v (str "normal") ∧ f = .normal) ∨ (SameNoCase v (str "gamsbas") ∧ f = .gamsbas) ∨ (SameNoCase v (str "csv") ∧ f = .csv)

def DFmtName (v : Text) (f : DFmt) : Prop :=
  (SameNoCase v (str "normal") ∧ f = .normal) ∨ (SameNoCase v (str "hexponential") ∧ f = .hexponential) ∨ (SameNoCase v (str "hexBytes") ∧ f = .hexBytes)

/-- options that can be given once -/
def once : List Key := [.symb, .uelTable, .delim, .decSep, .format, .dformat, .output]

/-- values that are not accepted -/
inductive BadVal : Key → Text → Prop
  | empty {k} : k ∈ [Key.symb, .uelTable, .output, .ide, .filterDef, .cdim] → BadVal k []
  | yesNo {k v} : k ∈ [Key.ide, .filterDef, .cdim] → ¬ Yes v → ¬ No v → BadVal k v
  | delim {v} : (∀ c, ¬ DelimName v c) → BadVal .delim v
  | sep {v} : (∀ c, ¬ SepName v c) → BadVal .decSep v
  | format {v} : (∀ f, ¬ FmtName v f) → BadVal .format v
  | dformat {v} : (∀ f, ¬ DFmtName v f) → BadVal .dformat v

/-- arguments that are not accepted -/
inductive Bad (l : List (Key × Text)) (u : Bool) : Prop
  | unknown : u = true → Bad l u
  | value {k v} : (k, v) ∈ l → BadVal k v → Bad l u
  | twice {k v w a b c} : k ∈ once → l = a ++ (k, v) :: b ++ (k, w) :: c → Bad l u

def FormatOf (l : List (Key × Text)) (f : OFmt) : Prop := (¬ Given l .format ∧ f = .normal) ∨ ∃ v, (Key.format, v) ∈ l ∧ FmtName v f
def DFormatOf (l : List (Key × Text)) (f : DFmt) : Prop := (¬ Given l .dformat ∧ f = .normal) ∨ ∃ v, (Key.dformat, v) ∈ l ∧ DFmtName v f
def SepOf (l : List (Key × Text)) (c : UInt8) : Prop := (¬ Given l .decSep ∧ c = 46) ∨ ∃ v, (Key.decSep, v) ∈ l ∧ SepName v c
def DelimOf (l : List (Key × Text)) (c : UInt8) : Prop :=
  (¬ Given l .delim ∧ ((FormatOf l .csv ∧ c = 44) ∨ (¬ FormatOf l .csv ∧ c = 46))) ∨ ∃ v, (Key.delim, v) ∈ l ∧ DelimName v c

/-- the delimiter is the decimal separator (periods are allowed), or a CSV file without a symbol -/
inductive Conflict (l : List (Key × Text)) : Prop
  | same {c} : DelimOf l c → SepOf l c → c ≠ 46 → Conflict l
  | noSymbol : FormatOf l .csv → ¬ Given l .symb → Conflict l

/-- the first one that is wanted -/
inductive First : List (Prop × Act) → Act → Prop
  | here {P : Prop} {a r} : P → First ((P, a) :: r) a
  | there {P : Prop} {a b r} : ¬ P → First r a → First ((P, b) :: r) a

/-- a text for a special value -/
def TextOf (l : List (Key × Text)) (k : Key) (o : Option Text) : Prop := (¬ Given l k ∧ o = none) ∨ ∃ v, Last l k v ∧ o = some v

/-- the program works with the options -/
structure Takes (ex : Text → Bool) (file : Text) (l : List (Key × Text)) (r : Run) : Prop where
  input : InName ex file r.input
  out : One l .output r.out
  ide : r.ide = true ↔ ∃ v, Last l .ide v ∧ Yes v
  fmt : FormatOf l r.fmt
  uels : One l .uelTable r.uels
  act : ∃ s, One l .symb s ∧ First [(Given l .uelTable ∧ r.fmt = .csv, .uelsCsv), (Given l .symbols, .symbols), (Given l .asSet, .asSet false),
    (Given l .asSetDI, .asSet true), (Given l .domainInfo, .domInfo), (Given l .setText, .setText), (Given l .symb ∧ r.fmt = .csv, .csv s),
    (Given l .symb, .one s), (True, .all)] r.act
  delim : DelimOf l r.opt.delim
  sep : SepOf l r.opt.sep
  dfmt : DFormatOf l r.opt.dfmt
  eps : TextOf l .eps r.opt.eps
  na : TextOf l .na r.opt.na
  pinf : TextOf l .pinf r.opt.pin
  minf : TextOf l .minf r.opt.min
  undf : TextOf l .undf r.opt.und
  zero : TextOf l .zero r.opt.zero
  header : TextOf l .header r.opt.header
  showHdr : r.opt.showHdr = false ↔ r.fmt = .gamsbas ∨ (Given l .noHeader ∧ Given l .symb)
  data : r.opt.data = false ↔ Given l .noData ∧ r.fmt = .normal
  filter : r.opt.filter = false ↔ ∃ v, Last l .filterDef v ∧ No v
  cdim : r.opt.cdim = true ↔ ∃ v, Last l .cdim v ∧ Yes v
  allFields : r.opt.allFields = true ↔ Given l .allFields
  csvText : r.opt.setText = true ↔ Given l .csvText

end Gdx.DumpOpts
