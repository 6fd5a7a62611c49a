import Verif.Model.Prim

/-!
A file of the operating system with a file pointer (`/repo/src/rtl/p3utils.cpp` p3FileRead, p3FileWrite,
p3FileSetPointer; I/O errors and short writes are not modelled).
-/

namespace Gdx

/-- bytes of a file after writing `bs` at position `p`; a gap behind the old end is filled with 0 bytes -/
def splice (f : List UInt8) (p : Nat) (bs : List UInt8) : List UInt8 :=
  if bs = [] then f
  else (f ++ List.replicate (p - f.length) 0).take p ++ bs ++ f.drop (p + bs.length)

structure PFile where
  bytes : List UInt8
  pos : Nat
  deriving DecidableEq, Repr

namespace PFile
/-- read up to `n` bytes at the file pointer -/
def read (f : PFile) (n : Nat) : List UInt8 × PFile :=
  let bs := (f.bytes.drop f.pos).take n
  (bs, { f with pos := f.pos + bs.length })
/-- write at the file pointer -/
def write (f : PFile) (bs : List UInt8) : PFile :=
  { bytes := splice f.bytes f.pos bs, pos := f.pos + bs.length }
/-- move the file pointer -/
def seek (f : PFile) (p : Nat) : PFile := { f with pos := p }
end PFile

/-- an operation of a stream user, and what it returns -/
inductive SOp where
  | read (n : Nat)
  | write (bs : List UInt8)
  | seek (p : Nat)
  | getPos
  deriving DecidableEq, Repr

inductive SOut where
  | data (bs : List UInt8)
  | pos (p : Nat)
  | none
  deriving DecidableEq, Repr

/-- the operations performed directly on the file -/
def PFile.step (f : PFile) : SOp → SOut × PFile
  | .read n => let (bs, f) := f.read n; (.data bs, f)
  | .write bs => (.none, f.write bs)
  | .seek p => (.none, f.seek p)
  | .getPos => (.pos f.pos, f)

def PFile.run (f : PFile) : List SOp → List SOut × PFile
  | [] => ([], f)
  | o :: os =>
    let (a, f) := f.step o
    let (as, f) := f.run os
    (a :: as, f)

end Gdx
