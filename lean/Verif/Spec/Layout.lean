import Verif.Spec.Names

/-!
Layout of a GDX file (versions up to 7) as a predicate on bytes, and the checks that opening has to make in their order.
Independent of any reader.
-/

namespace Gdx.Spec

abbrev Bytes := List UInt8

/-- unsigned number, least significant byte first -/
def leNat : Bytes → Nat
  | [] => 0
  | b :: bs => b.toNat + 256 * leNat bs

/-- two's complement number of `k` bytes -/
def IsInt (k : Nat) (b : Bytes) (x : Int) : Prop :=
  b.length = k ∧ x = (if 2 * leNat b < 256 ^ k then (leNat b : Int) else (leNat b : Int) - 256 ^ k)

/-- a length byte followed by that many bytes -/
def IsStr (b : Bytes) : Prop := ∃ n s, b = n :: s ∧ s.length = n.toNat

/-- `n` pieces one after the other -/
inductive Items (P : Bytes → Prop) : Nat → Bytes → Prop
  | nil : Items P 0 []
  | cons {n : Nat} {a b : Bytes} : P a → Items P n b → Items P (n + 1) (a ++ b)

/-- a count (negative: none) and that many pieces; `d` = how many pieces less than the count -/
def Counted (P : Bytes → Prop) (d : Int) (b : Bytes) : Prop := ∃ c n r, b = c ++ r ∧ IsInt 4 c n ∧ Items P (n - d).toNat r

/-- `l` starts with the mark `m` (written as a string) -/
def HasMark (m : Bytes) (l : Bytes) : Prop := (UInt8.ofNat m.length :: m) <+: l

/-! ### the header -/

/-- sizes and patterns 0x1234, 0x12345678, pi: written on a little-endian machine -/
def orderMarks : Bytes := [2, 0x34, 0x12, 4, 0x78, 0x56, 0x34, 0x12, 8, 0x18, 0x2d, 0x44, 0x54, 0xfb, 0x21, 0x09, 0x40]
/-- the same, written on a big-endian machine -/
def orderMarksBig : Bytes := [2, 0x12, 0x34, 4, 0x12, 0x34, 0x56, 0x78, 8, 0x40, 0x09, 0x21, 0xfb, 0x54, 0x44, 0x2d, 0x18]

/-- "GAMSGDX" -/
def productName : Bytes := [71, 65, 77, 83, 71, 68, 88]

/-- the product string is there, in any case -/
def HasProduct (l : Bytes) : Prop := ∃ h, SameNoCase h productName ∧ (7 :: h) <+: l

/-- up to the product string; `l` = the bytes behind it -/
def Upto1 (f l : Bytes) : Prop := ∃ h, SameNoCase h productName ∧ f = orderMarks ++ (123 :: 7 :: (h ++ l))

/-- up to the version `v` -/
def Upto2 (f : Bytes) (v : Int) (l : Bytes) : Prop := ∃ b, Upto1 f (b ++ l) ∧ IsInt 4 b v

/-- up to the producer strings; `c`: compression level (only stored from version 6 on), `fs`: the string of the system that
    wrote the file -/
def Upto3 (f : Bytes) (v c : Int) (fs : Bytes) (l : Bytes) : Prop :=
  ∃ b s n p, Upto2 f v (b ++ (s ++ (p ++ l))) ∧ v ≤ 7 ∧ (if v ≤ 5 then b = [] ∧ c = 0 else IsInt 4 b c) ∧
    s = n :: fs ∧ fs.length = n.toNat ∧ IsStr p

/-- positions of the tables -/
structure Places where
  symb : Int
  uels : Int
  text : Int
  acro : Int
  doms : Int

/-- the positions of the tables as they are in the file -/
def PlacesAre (v : Int) (l : Bytes) (ps : Places) : Prop :=
  if v ≤ 5 then ∃ a b c r, l = a ++ (b ++ (c ++ r)) ∧ IsInt 4 a ps.symb ∧ IsInt 4 b ps.uels ∧ IsInt 4 c ps.text
  else ∃ a b c r, l = a ++ (b ++ (c ++ r)) ∧ IsInt 8 a ps.symb ∧ IsInt 8 b ps.uels ∧ IsInt 8 c ps.text ∧
    (v = 7 → ∃ d e g q, r = d ++ (e ++ (g ++ q)) ∧ IsInt 8 d ps.acro ∧ e.length = 8 ∧ IsInt 8 g ps.doms)

/-- up to the positions, with the index mark in place -/
def Header (f : Bytes) (v c : Int) (fs : Bytes) (ps : Places) : Prop :=
  ∃ b l, Upto3 f v c fs (b ++ l) ∧ IsInt 4 b 19510624 ∧ PlacesAre v l ps

/-! ### the tables -/

/-- one symbol -/
def SymBytes (v : Int) (b : Bytes) : Prop :=
  ∃ name pos dim d typ num ex co ds cm, b = name ++ (pos ++ (dim ++ (typ :: (num ++ (ex ++ (co ++ (ds ++ cm))))))) ∧
    IsStr name ∧ pos.length = (if v ≤ 5 then 4 else 8) ∧ IsInt 4 dim d ∧ num.length = 13 ∧ IsStr ex ∧
    co.length = (if v ≤ 5 then 0 else 1) ∧
    (if v = 7 then (ds = [0] ∨ ∃ x r, x ≠ 0 ∧ 0 ≤ d ∧ ds = x :: r ∧ r.length = 4 * d.toNat) ∧ Counted IsStr 0 cm
     else ds = [] ∧ cm = [])

/-- one acronym -/
def AcrBytes (b : Bytes) : Prop := ∃ n t m, b = n ++ (t ++ m) ∧ IsStr n ∧ IsStr t ∧ m.length = 4

/-- entries of 4-byte numbers, the last number is not positive -/
def RelaxedBytes (b : Bytes) : Prop := ∃ a c x, b = a ++ c ∧ 4 ∣ a.length ∧ IsInt 4 c x ∧ x ≤ 0

/-- A table: its mark, the error if it does not begin with the mark, and its parts, each followed by the mark, with the
    error if it is not. -/
structure Sect where
  mark : Bytes
  code : Int
  parts : List ((Bytes → Prop) × Int)

/-- the parts are in place, each followed by the mark -/
def PartsOk (mark : Bytes) : List ((Bytes → Prop) × Int) → Bytes → Prop
  | [], _ => True
  | p :: ps, l => ∃ b r, l = b ++ ((UInt8.ofNat mark.length :: mark) ++ r) ∧ p.1 b ∧ PartsOk mark ps r

/-- the first part that is not followed by the mark has error `n` -/
def PartsFail (mark : Bytes) (n : Int) : List ((Bytes → Prop) × Int) → Bytes → Prop
  | [], _ => False
  | p :: ps, l => (∃ b r, l = b ++ r ∧ p.1 b ∧ ¬ HasMark mark r ∧ n = p.2) ∨
      ∃ b r, l = b ++ ((UInt8.ofNat mark.length :: mark) ++ r) ∧ p.1 b ∧ PartsFail mark n ps r

def Sect.Ok (s : Sect) (l : Bytes) : Prop := ∃ r, l = (UInt8.ofNat s.mark.length :: s.mark) ++ r ∧ PartsOk s.mark s.parts r
def Sect.Fail (s : Sect) (n : Int) (l : Bytes) : Prop :=
  (¬ HasMark s.mark l ∧ n = s.code) ∨ ∃ r, l = (UInt8.ofNat s.mark.length :: s.mark) ++ r ∧ PartsFail s.mark n s.parts r

/-- "_SYMB_" -/
def symbSect (v : Int) : Sect := ⟨[95, 83, 89, 77, 66, 95], -100035, [(Counted (SymBytes v) 0, -100036)]⟩
/-- "_UEL_"; files of 2001 say one element too many -/
def uelSect (fs : Bytes) : Sect :=
  ⟨[95, 85, 69, 76, 95], -100037, [(Counted IsStr (if (fs.drop 15).take 4 = [50, 48, 48, 49] then 1 else 0), -100038)]⟩
/-- "_SETT_" -/
def textSect : Sect := ⟨[95, 83, 69, 84, 84, 95], -100039, [(Counted IsStr 0, -100040)]⟩
/-- "_ACRO_" -/
def acroSect : Sect := ⟨[95, 65, 67, 82, 79, 95], -100045, [(Counted AcrBytes 0, -100046)]⟩
/-- "_DOMS_" -/
def domsSect : Sect := ⟨[95, 68, 79, 77, 83, 95], -100061, [(Counted IsStr 0, -100062), (RelaxedBytes, -100063)]⟩

/-- the tables that are looked at, in this order: with texts if `t`, acronyms and domains only in version 7 -/
def sects (v : Int) (fs : Bytes) (ps : Places) (t : Bool) : List (Sect × Int) :=
  [(symbSect v, ps.symb), (uelSect fs, ps.uels)] ++ (if t then [(textSect, ps.text)] else []) ++
    (if v = 7 then [(acroSect, ps.acro)] else []) ++ (if v = 7 ∧ ps.doms ≠ 0 then [(domsSect, ps.doms)] else [])

/-- All checks are passed. `dec` decompresses (first argument: is the file compressed?). -/
def Accepted (dec : Bool → Bytes → Bytes) (f : Bytes) (t : Bool) : Prop :=
  ∃ v c fs ps, Header f v c fs ps ∧ ∀ s ∈ sects v fs ps t, 0 ≤ s.2 ∧ s.1.Ok (dec (decide (c > 0)) (f.drop s.2.toNat))

/-- The first check that fails has the error `n`. -/
inductive Refused (dec : Bool → Bytes → Bytes) (f : Bytes) (t : Bool) (n : Int) : Prop
  | order (h : ¬ orderMarks <+: f) (hb : ¬ orderMarksBig <+: f) (hn : n = -100041)
  | header (b : UInt8) (l : Bytes) (h : f = orderMarks ++ (b :: l)) (hb : b ≠ 123) (hn : n = -100032)
  | product (l : Bytes) (h : f = orderMarks ++ (123 :: l)) (hp : ¬ HasProduct l) (hn : n = -100034)
  | version (v : Int) (l : Bytes) (h : Upto2 f v l) (hv : 7 < v) (hn : n = -100033)
  | index (v c : Int) (fs b l : Bytes) (x : Int) (h : Upto3 f v c fs (b ++ l)) (hx : IsInt 4 b x) (hne : x ≠ 19510624) (hn : n = -100031)
  | table (v c : Int) (fs : Bytes) (ps : Places) (h : Header f v c fs ps) (a b : List (Sect × Int)) (s : Sect × Int)
      (hs : sects v fs ps t = a ++ s :: b) (ha : ∀ s ∈ a, 0 ≤ s.2 ∧ s.1.Ok (dec (decide (c > 0)) (f.drop s.2.toNat)))
      (hp : 0 ≤ s.2) (hf : s.1.Fail n (dec (decide (c > 0)) (f.drop s.2.toNat)))

end Gdx.Spec
