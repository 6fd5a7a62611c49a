import Verif.Model.Prim

/-!
Byte order of streams: `/repo/src/gdlib/gmsstrm.hpp` 278-318 (ReadValueOrdered, initOrderCommon) and
`/repo/src/gdlib/gmsstrm.cpp` 792-877 (TMiBufferedStream). The machine's own byte order is a parameter.
-/

namespace Gdx

/-- bytes of an unsigned number in the memory of a machine (`big` = most significant byte first) -/
def memBytes (big : Bool) (n x : Nat) : List UInt8 := if big then (encLE n x).reverse else encLE n x
/-- the number in memory -/
def memVal (big : Bool) (bs : List UInt8) : Nat := if big then decLE bs.reverse else decLE bs

/-- gmsstrm.hpp:81-85 constants -/
def patWord : Nat := 0x1234
def patInt : Nat := 0x12345678
/-- bits of 3.1415926535897932385 -/
def patDouble : Nat := 0x400921fb54442d18
def patBadOrder : Nat := 254
def patBadSize : Nat := 255

/-- gmsstrm.cpp:803-817: the header written by a machine with byte order `big` -/
def orderHeader (big : Bool) : List UInt8 :=
  2 :: memBytes big 2 patWord ++ 4 :: memBytes big 4 patInt ++ 8 :: memBytes big 8 patDouble

/-- gmsstrm.hpp:296-318 initOrderCommon on a machine with byte order `big` for a type of `n` bytes. The comparison of
    the double pattern is a comparison of bits because the pattern is neither zero nor NaN. -/
def initOrder (big : Bool) (n pat : Nat) : Rd Nat := fun l => do
  let (sz, r) ← rdByte l
  if sz.toNat ≠ n then some (patBadSize, r.drop sz.toNat)
  else do
    let (v, r) ← rdBytes n r
    if memVal big v = pat then some (0, r)
    else if memVal big v.reverse = pat then some (1, r)
    else some (patBadOrder, r)

structure Orders where
  word : Nat
  int : Nat
  dbl : Nat
  deriving DecidableEq, Repr

/-- gmsstrm.cpp:792-797 DetermineByteOrder -/
def determineByteOrder (big : Bool) : Rd Orders := fun l => do
  let (w, l) ← initOrder big 2 patWord l
  let (i, l) ← initOrder big 4 patInt l
  let (d, l) ← initOrder big 8 patDouble l
  some (⟨w, i, d⟩, l)

/-- gmsstrm.cpp:837-847 GoodByteOrder -/
def goodByteOrder (o : Orders) : Nat :=
  (if o.word = patBadSize then 1 else 0) + (if o.word = patBadOrder then 2 else 0) +
  (if o.int = patBadSize then 4 else 0) + (if o.int = patBadOrder then 8 else 0) +
  (if o.dbl = patBadSize then 16 else 0) + (if o.dbl = patBadOrder then 32 else 0)

/-- gmsstrm.hpp:281-294 ReadValueOrdered: the raw number of `n` bytes; any non-zero order means reversing -/
def rdOrdered (big : Bool) (n order : Nat) : Rd Nat := fun l => do
  let (bs, r) ← rdBytes n l
  some (memVal big (if order ≠ 0 then bs.reverse else bs), r)

/-- the multi-byte types of a stream; which order mark their readers use (gmsstrm.cpp:849-867: ReadInt64 uses the mark of
    the integers) -/
inductive OrdKind where
  | word | int | int64 | dbl
  deriving DecidableEq, Repr

/-- sizeof -/
def OrdKind.size : OrdKind → Nat
  | .word => 2 | .int => 4 | .int64 => 8 | .dbl => 8

/-- gmsstrm.cpp:849-867 ReadDouble, ReadInteger, ReadWord, ReadInt64 of TMiBufferedStream, as unsigned numbers (the bit
    patterns) -/
def rdKind (big : Bool) (o : Orders) : OrdKind → Rd Nat
  | .word => rdOrdered big 2 o.word
  | .int => rdOrdered big 4 o.int
  | .int64 => rdOrdered big 8 o.int
  | .dbl => rdOrdered big 8 o.dbl

end Gdx
