import Verif.Model.Val

/-!
The record codec: key part and value part of one record in the file
(`/repo/src/gxfile.cpp` GetIntegerSize 353-359, InitDoWrite 1170-1185, DoWrite 1234-1380, DoRead 1382-1466, and the
reading of the data block header in PrepareSymbolRead 963-990).

Keys are `List Int` of length `dim` (the first FCurrentDim entries of the C++ arrays). The domain check at the
beginning of DoWrite (1251-1270) and the bookkeeping behind the value part (1371-1379) are in `Model/Api`.
-/

namespace Gdx

inductive ElemSize where
  | byte | word | int
  deriving DecidableEq, Repr

/-- gxfile.cpp:353-359 GetIntegerSize. -/
def getIntegerSize (n : Int) : ElemSize :=
  if n ≤ 0 then .int else if n ≤ 255 then .byte else if n ≤ 65535 then .word else .int

/-- Minimum and element size of one index position: MinElem[D] and ElemType[D]. -/
structure PosDesc where
  mn : Int
  sz : ElemSize
  deriving DecidableEq, Repr

/-- gxfile.cpp:1181 / 985: ElemType from the bounds, in 64 bit arithmetic. -/
def posDesc (b : Int × Int) : PosDesc := { mn := b.1, sz := getIntegerSize (b.2 - b.1 + 1) }

/-- INDEX_INITIAL, gxfile.cpp:153 -/
def indexInitial : Int := -256

/-- gxfile.cpp:1271-1279: first position (0-based) where the key differs from the last one, with the difference.
    The C++ subtraction is undefined when it leaves the int range. -/
def firstDiff : List Int → List Int → Res (Option (Nat × Int))
  | k :: ks, l :: ls =>
    if I32 (k - l) then
      if k - l ≠ 0 then .ok (some (0, k - l))
      else do
        match ← firstDiff ks ls with
        | some (d, x) => pure (some (d + 1, x))
        | none => pure none
    else .ub
  | _, _ => .ok none

/-- gxfile.cpp:1307-1324: one index position of a record written in full. A value outside of the range of the
    chosen size violates an `assert` (abort, or silent truncation in a release build): treated as undefined. -/
def encElem (p : PosDesc) (k : Int) : Res (List UInt8) :=
  let v := k - p.mn
  if ¬ I32 v then .ub
  else match p.sz with
    | .int => .ok (wrInt v)
    | .word => if 0 ≤ v ∧ v ≤ 65535 then .ok (wrWord v.toNat) else .ub
    | .byte => if 0 ≤ v ∧ v ≤ 255 then .ok [UInt8.ofNat v.toNat] else .ub

def encElems : List PosDesc → List Int → Res (List UInt8)
  | p :: ps, k :: ks => do
    let a ← encElem p k
    let b ← encElems ps ks
    pure (a ++ b)
  | _, _ => .ok []

/-- What DoWrite does with a key. -/
inductive KeyOut where
  | dup                                          -- ERR_DATADUPLICATE
  | unsorted                                     -- ERR_RAWNOTSORTED
  | put (bytes : List UInt8) (last : List Int)   -- accepted: bytes written, new LastElem
  deriving DecidableEq, Repr

/-- DeltaForWrite, gxfile.cpp:770: `255 - FCurrentDim - 1` (`255 - 10 - 1` for format versions up to 6) -/
def deltaForWrite (thr : Nat) : Int := 255 - thr - 1

/-- gxfile.cpp:1271-1325: the key part of DoWrite. `last` = LastElem, `cnt` = DataCount. `thr` is the largest code that
    means "position": FCurrentDim in the present code (which only writes version 7), 10 = MaxDimV148 for writers of the
    format versions up to 6 (comment and formula at 764-770, reader at 946). -/
def encKey (dim thr : Nat) (ps : List PosDesc) (last : List Int) (cnt : Nat) (key : List Int) : Res KeyOut := do
  match ← firstDiff key last with
  | none =>
    if dim > 0 ∧ cnt ≥ 1 then pure .dup
    else pure (.put [1] last)                     -- keeps logic working for scalars
  | some (d, delta) =>
    if delta < 0 then pure .unsorted
    else if d + 1 = dim ∧ delta ≤ deltaForWrite thr then
      pure (.put [UInt8.ofNat (thr + delta.toNat)] (last.take d ++ key.drop d))
    else do
      let bs ← encElems (ps.drop d) (key.drop d)
      pure (.put (UInt8.ofNat (d + 1) :: bs) (last.take d ++ key.drop d))

/-- gxfile.cpp:1415-1427: one index position read in full; leaving the int range is undefined. -/
def decElem (p : PosDesc) : Rd Int := fun l => do
  let (v, r) ← (match p.sz with
    | .int => rdInt l
    | .word => (rdWord l).map fun (w, r) => ((w : Int), r)
    | .byte => (rdByte l).map fun (b, r) => ((b.toNat : Int), r))
  if I32 (v + p.mn) then some (v + p.mn, r) else none

def decElems : List PosDesc → Rd (List Int)
  | [], l => some ([], l)
  | p :: ps, l => do
    let (k, r) ← decElem p l
    let (ks, r) ← decElems ps r
    some (k :: ks, r)

/-- LastElem[FCurrentDim-1] += x (nothing for dimension 0), gxfile.cpp:1407; leaving the int range is undefined. -/
def bumpLast (x : Int) : List Int → Option (List Int)
  | [] => some []
  | [k] => if I32 (k + x) then some [k + x] else none
  | k :: ks => (bumpLast x ks).map (k :: ·)

/-- gxfile.cpp:1401-1427: key part of DoRead. Result `none` inside = end of data; otherwise AFDim and the new LastElem.
    `dfr` = DeltaForRead. A zero byte violates the assertion at 1412: undefined. -/
def decKey (dim dfr : Nat) (ps : List PosDesc) (last : List Int) : Rd (Option (Nat × List Int)) := fun l => do
  let (b, r) ← rdByte l
  if b.toNat > dfr then
    if b = 255 then some (none, r)
    else do
      let k ← bumpLast ((b.toNat : Int) - dfr) last
      some (some (dim, k), r)
  else if b.toNat = 0 then none
  else do
    let (ks, r) ← decElems (ps.drop (b.toNat - 1)) r
    some (some (b.toNat, last.take (b.toNat - 1) ++ ks), r)

/-- A stored record. -/
structure Rec where
  key : List Int
  vals : List SVal
  deriving DecidableEq, Repr

/-- DoRead without universe, default record and interpretation of the values: AFDim and the record, `none` at the end of
    the data. `nv` = DataSize. -/
def decRec (dim dfr nv : Nat) (ps : List PosDesc) (last : List Int) : Rd (Option (Nat × Rec)) := fun l => do
  let (o, r) ← decKey dim dfr ps last l
  match o with
  | none => some (none, r)
  | some (fd, key) => do
    let (vs, r) ← rdSVals nv r
    some (some (fd, { key := key, vals := vs }), r)

/-- Repeated DoRead until the end of the data: all records with their AFDim. The fuel bounds the number of calls;
    every call consumes at least one byte, so the number of remaining bytes is always enough. -/
def decRecs (dim dfr nv : Nat) (ps : List PosDesc) : Nat → List Int → Rd (List (Nat × Rec))
  | 0, _, _ => none
  | fuel + 1, last, l => do
    let (o, r) ← decRec dim dfr nv ps last l
    match o with
    | none => some ([], r)
    | some (fd, rec) => do
      let (rs, r) ← decRecs dim dfr nv ps fuel rec.key r
      some ((fd, rec) :: rs, r)

/-! ### writing a sequence of records -/

inductive RecErr where
  | dup | unsorted
  deriving DecidableEq, Repr

/-- Writer state inside one symbol: LastElem, DataCount, the bytes written behind the block header, and the refused
    records in the order of refusal. -/
structure Wr where
  last : List Int
  cnt : Nat
  out : List UInt8
  errs : List (RecErr × Rec)
  deriving DecidableEq, Repr

/-- gxfile.cpp:1180: LastElem[D] = INDEX_INITIAL for all positions. -/
def Wr.init (dim : Nat) : Wr :=
  { last := List.replicate dim indexInitial, cnt := 0, out := [], errs := [] }

/-- gxfile.cpp:1271-1369: DoWrite behind the domain check, for a record whose values are already in stored form. -/
def putRec (dim thr : Nat) (ps : List PosDesc) (w : Wr) (r : Rec) : Res Wr := do
  match ← encKey dim thr ps w.last w.cnt r.key with
  | .dup => pure { w with errs := w.errs ++ [(.dup, r)] }
  | .unsorted => pure { w with errs := w.errs ++ [(.unsorted, r)] }
  | .put bs last =>
    pure { w with last := last, cnt := w.cnt + 1, out := w.out ++ bs ++ encSVals r.vals }

def putRecs (dim thr : Nat) (ps : List PosDesc) : Wr → List Rec → Res Wr
  | w, [] => .ok w
  | w, r :: rs => do
    let w ← putRec dim thr ps w r
    putRecs dim thr ps w rs

/-! ### data block of a symbol -/

def markData : Str := [95, 68, 65, 84, 65, 95]   -- "_DATA_"

def encBounds (bs : List (Int × Int)) : List UInt8 := (bs.map fun b => wrInt b.1 ++ wrInt b.2).flatten

/-- gxfile.cpp:1170-1185 InitDoWrite: header of the data block. -/
def encBlockHeader (dim : Nat) (nrRecs : Int) (bs : List (Int × Int)) : List UInt8 :=
  encStr markData ++ wrByte (UInt8.ofNat dim) ++ wrInt nrRecs ++ encBounds bs

def decBounds : Nat → Rd (List (Int × Int))
  | 0, l => some ([], l)
  | n + 1, l => do
    let (a, r) ← rdInt l
    let (b, r) ← rdInt r
    let (bs, r) ← decBounds n r
    some ((a, b) :: bs, r)

/-- Outcome of reading a data block header. -/
inductive HdrOut where
  | badMarker                        -- ERR_BADDATAMARKER_DATA
  | badDim                           -- ERR_BADDATAMARKER_DIM
  | hdr (bs : List (Int × Int))
  deriving DecidableEq, Repr

/-- gxfile.cpp:963-986 (PrepareSymbolRead): marker, dimension, (ignored) record counter, bounds. -/
def decBlockHeader (dim : Nat) : Rd HdrOut := fun l => do
  let (m, r) ← rdString l
  if m ≠ markData then some (.badMarker, r)
  else do
    let (d, r) ← rdByte r
    if d.toNat ≠ dim then some (.badDim, r)
    else do
      let (_, r) ← rdInt r
      let (bs, r) ← decBounds dim r
      some (.hdr bs, r)

/-- The whole data block of a symbol as DataWriteRawStart (or DataWriteDone for the sorted modes), the DoWrite calls and
    DataWriteDone (`WriteByte(255)`, gxfile.cpp:524) produce it, with the final writer state. -/
def encBlock (dim thr : Nat) (nrRecs : Int) (bs : List (Int × Int)) (recs : List Rec) : Res (List UInt8 × Wr) := do
  let w ← putRecs dim thr (bs.map posDesc) (Wr.init dim) recs
  pure (encBlockHeader dim nrRecs bs ++ w.out ++ [255], w)

/-- Reading a whole data block: header, then DoRead until the end mark. `last0` is what LastElem holds before the first
    record: INDEX_INITIAL inside of PrepareSymbolRead (978), -1 for the record readers called later (1140).
    `none` inside = bad marker or dimension. -/
def decBlock (dim dfr nv : Nat) (last0 : Int) : Rd (Option (List (Nat × Rec))) := fun l => do
  let (h, r) ← decBlockHeader dim l
  match h with
  | .hdr bs => do
    let (rs, r) ← decRecs dim dfr nv (bs.map posDesc) (r.length + 1) (List.replicate dim last0) r
    some (some rs, r)
  | _ => some (none, r)

end Gdx
