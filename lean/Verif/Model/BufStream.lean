import Verif.Model.PFile

/-!
TBufferedFileStream, `/repo/src/gdlib/gmsstrm.cpp` 594-785, over the physical file `PFile` (TXFileStream without
password; with password see `Password.lean`). Buffer size and zlib are parameters. Counters do not wrap around (counts
below 2^32). FCanCompress is always true (constructor, gmsstrm.cpp:667).
-/

namespace Gdx

/-- zlib's compress and uncompress; `none` = uncompress reports an error. -/
structure Zlib where
  compress : List UInt8 → List UInt8
  uncompress : List UInt8 → Option (List UInt8)

/-- the stream object: physical file (its pointer is PhysPosition), BufPtr, NrLoaded, NrRead, NrWritten, FCompress -/
structure BufS where
  f : PFile
  buf : List UInt8
  nl : Nat
  nr : Nat
  nw : Nat
  comp : Bool
  deriving DecidableEq, Repr

/-- memcpy of `bs` into the buffer at `i`; outside of the buffer: undefined -/
def putAt (buf : List UInt8) (i : Nat) (bs : List UInt8) : Res (List UInt8) :=
  if i + bs.length ≤ buf.length then .ok (buf.take i ++ bs ++ buf.drop (i + bs.length)) else .ub

namespace BufS

/-- gmsstrm.cpp:658-670 constructor -/
def init (B : Nat) (f : PFile) : BufS :=
  { f := f, buf := List.replicate B 0, nl := 0, nr := 0, nw := 0, comp := false }

/-- the bytes available in the buffer -/
def avail (s : BufS) : List UInt8 := (s.buf.take s.nl).drop s.nr

/-- gmsstrm.cpp:594-622 FillBuffer; result: NrLoaded > 0. A block that does not fit into the buffer or that zlib does not
    accept is undefined here. -/
def fill (Z : Zlib) (s : BufS) : Res (Bool × BufS) :=
  if s.comp = false then do
    let r := s.f.read s.buf.length
    let buf ← putAt s.buf 0 r.1
    .ok (decide (0 < r.1.length), { s with f := r.2, buf := buf, nl := r.1.length, nr := 0, nw := 0 })
  else
    let h := s.f.read 3
    match h.1 with
    | [typ, b1, b2] =>
      let wlen := b1.toNat * 256 + b2.toNat
      let d := h.2.read wlen
      if typ = 0 then do
        let buf ← putAt s.buf 0 d.1
        .ok (decide (0 < d.1.length), { s with f := d.2, buf := buf, nl := d.1.length, nr := 0, nw := 0 })
      else
        match Z.uncompress d.1 with
        | none => .ub
        | some x => do
          let buf ← putAt s.buf 0 x
          .ok (decide (0 < x.length), { s with f := d.2, buf := buf, nl := x.length, nr := 0, nw := 0 })
    | _ => .ok (false, { s with f := h.2, nl := 0, nr := 0, nw := 0 })

/-- one compressed or stored block: gmsstrm.cpp:689-711 -/
def block (Z : Zlib) (bs : List UInt8) : List UInt8 :=
  let c := Z.compress bs
  if c.length < bs.length then
    1 :: UInt8.ofNat (c.length / 256) :: UInt8.ofNat (c.length % 256) :: c
  else
    0 :: UInt8.ofNat (bs.length / 256) :: UInt8.ofNat (bs.length % 256) :: bs

/-- gmsstrm.cpp:679-714 FlushBuffer -/
def flush (Z : Zlib) (s : BufS) : BufS :=
  if s.nw = 0 then s
  else if s.comp = false then
    { s with f := s.f.write (s.buf.take s.nw), nl := 0, nr := 0, nw := 0 }
  else
    { s with f := s.f.write (block Z (s.buf.take s.nw)), nl := 0, nr := 0, nw := 0 }

/-- gmsstrm.cpp:727-735: the loop of Read; `fuel` bounds the number of iterations -/
def readLoop (Z : Zlib) : Nat → BufS → Nat → Res (List UInt8 × BufS)
  | 0, s, 0 => .ok ([], s)
  | 0, _, _ + 1 => .ub
  | fuel + 1, s, count =>
    if count = 0 then .ok ([], s)
    else do
      let r ← if s.nr ≥ s.nl then fill Z s else .ok (true, s)
      if r.1 = false then .ok ([], r.2)
      else do
        let s := r.2
        let bs := s.avail.take count
        let q ← readLoop Z fuel { s with nr := s.nr + bs.length } (count - bs.length)
        .ok (bs ++ q.1, q.2)

/-- gmsstrm.cpp:716-737 Read -/
def read (Z : Zlib) (s : BufS) (count : Nat) : Res (List UInt8 × BufS) :=
  let s := if s.nw > 0 then s.flush Z else s
  if count ≤ s.nl - s.nr then .ok (s.avail.take count, { s with nr := s.nr + count })
  else readLoop Z (count + 1) s count

/-- gmsstrm.cpp:761-770: the loop of Write -/
def writeLoop (Z : Zlib) : Nat → BufS → List UInt8 → Res BufS
  | 0, s, [] => .ok s
  | 0, _, _ :: _ => .ub
  | fuel + 1, s, bs =>
    if bs = [] then .ok s
    else do
      let n := min bs.length (s.buf.length - s.nw)
      let buf ← putAt s.buf s.nw (bs.take n)
      let s := { s with buf := buf, nw := s.nw + n }
      let s := if s.nw ≥ s.buf.length then s.flush Z else s
      writeLoop Z fuel s (bs.drop n)

/-- gmsstrm.cpp:746-772 Write -/
def write (Z : Zlib) (s : BufS) (bs : List UInt8) : Res BufS := do
  let s ← if s.nl > 0 then
      if s.f.pos + s.nr < s.nl then .ub   -- negative position
      else .ok { s with f := s.f.seek (s.f.pos + s.nr - s.nl), nl := 0, nr := 0 }
    else .ok s
  if bs.length ≤ s.buf.length - s.nw then do
    let buf ← putAt s.buf s.nw bs
    .ok { s with buf := buf, nw := s.nw + bs.length }
  else writeLoop Z (2 * bs.length + 2) s bs

/-- gmsstrm.cpp:624-629 GetPosition -/
def getPos (Z : Zlib) (s : BufS) : Res (Nat × BufS) :=
  if s.nw = 0 then
    if s.f.pos + s.nr < s.nl then .ub else .ok (s.f.pos + s.nr - s.nl, s)
  else
    let s := if s.comp then s.flush Z else s
    .ok (s.f.pos + s.nw, s)

/-- gmsstrm.cpp:638-646: after flushing, is the target inside the loaded part of the buffer? -/
def seekLoaded (s : BufS) (p : Nat) : BufS :=
  if 0 < s.nl ∧ s.comp = false ∧ s.f.pos ≤ p + s.nl ∧ p < s.f.pos then { s with nr := p + s.nl - s.f.pos }
  else { s with f := s.f.seek p, nl := 0, nr := 0 }

/-- gmsstrm.cpp:631-649 SetPosition -/
def setPos (Z : Zlib) (s : BufS) (p : Nat) : BufS :=
  if s.nw > 0 then
    if p = s.f.pos + s.nw ∧ s.comp = false then s else (s.flush Z).seekLoaded p
  else s.seekLoaded p

/-- gmsstrm.cpp:779-785 SetCompression -/
def setComp (Z : Zlib) (s : BufS) (v : Bool) : BufS :=
  let s := if (s.comp = true ∨ v = true) ∧ s.nw > 0 then s.flush Z else s
  if s.comp ≠ v then { s with nl := 0, nr := 0, comp := v } else { s with comp := v }

/-- one call -/
def step (Z : Zlib) (s : BufS) : SOp → Res (SOut × BufS)
  | .read n => do
    let r ← s.read Z n
    .ok (.data r.1, r.2)
  | .write bs => do
    let s ← s.write Z bs
    .ok (.none, s)
  | .seek p => .ok (.none, s.setPos Z p)
  | .getPos => do
    let r ← s.getPos Z
    .ok (.pos r.1, r.2)

def run (Z : Zlib) (s : BufS) : List SOp → Res (List SOut × BufS)
  | [] => .ok ([], s)
  | o :: os => do
    let r ← s.step Z o
    let q ← run Z r.2 os
    .ok (r.1 :: q.1, q.2)

end BufS
end Gdx
