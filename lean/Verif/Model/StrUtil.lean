import Verif.Model.Prim

/-!
String checks and normalisation, `/repo/src/gxfile.cpp` 82-107, 314-351 and `/repo/src/gdlib/utils.cpp` 169-182.
Strings are C strings: their bytes up to the terminating 0.
-/

namespace Gdx

/-- gxfile.cpp:86-101: the loop of CanBeQuoted with its two flags -/
def canBeQuotedLoop (single double : Bool) : Str → Bool
  | [] => true
  | c :: cs =>
    if c = 39 then if double then false else canBeQuotedLoop true double cs
    else if c = 34 then if single then false else canBeQuotedLoop single true cs
    else if c < 32 then false
    else canBeQuotedLoop single double cs

/-- gxfile.cpp:82-102 CanBeQuoted -/
def canBeQuoted (s : Str) : Bool := canBeQuotedLoop false false s

/-- gxfile.cpp:104-107 GoodUELString; GLOBAL_UEL_IDENT_SIZE = 64 -/
def goodUEL (s : Str) : Bool := s.length < 64 && canBeQuoted s

/-- gxfile.cpp:318-331: the loop of MakeGoodExplText with the first quote seen (`\\0` in the code = none) -/
def makeGoodLoop (q : Option UInt8) : Str → Str
  | [] => []
  | c :: cs =>
    if c = 34 ∨ c = 39 then q.getD c :: makeGoodLoop (some (q.getD c)) cs
    else (if c < 32 then 63 else c) :: makeGoodLoop q cs

/-- gxfile.cpp:314-332 MakeGoodExplText -/
def makeGoodExplText (s : Str) : Str := makeGoodLoop none s

/-- gxfile.cpp:334-337 isLetter -/
def isLetter (c : UInt8) : Bool := (65 ≤ c && c ≤ 90) || (97 ≤ c && c ≤ 122)
/-- gxfile.cpp:339-342 isLetterDigitOrUnderscore -/
def isIdentChar (c : UInt8) : Bool := isLetter c || (48 ≤ c && c ≤ 57) || c == 95

/-- gxfile.cpp:344-351 IsGoodIdent -/
def isGoodIdent : Str → Bool
  | [] => false
  | c :: cs => isLetter c && cs.all isIdentChar && cs.length + 1 < 64

/-- utils.cpp:174-177: the loop of trimRight; `i` = index, `slen` = index of the last byte above 32 plus one -/
def trimLoop : Str → Nat → Nat → Nat
  | [], _, slen => slen
  | c :: cs, i, slen => trimLoop cs (i + 1) (if c > 32 then i + 1 else slen)

/-- utils.cpp:169-182 trimRight: the result as a string. (The copy into `storage` is only made when something is cut off;
    the size of `storage` is the caller's concern.) -/
def trimRight (s : Str) : Str := s.take (trimLoop s 0 0)

end Gdx
