import Verif.Model.PFile

/-!
Password scrambling, `/repo/src/gdlib/gmsstrm.cpp` 450-468 (SetPassWord), 538-548 (ApplyPassWord), 550-580 (TXFileStream
Read / Write).
-/

namespace Gdx

/-- gmsstrm.cpp:454-467: the loop of SetPassWord; `bb` = the previous byte was a blank. Repeated blanks are dropped,
    every byte is rotated right by one bit. -/
def setPassWordLoop (bb : Bool) : Str → Str
  | [] => []
  | c :: cs =>
    if c = 32 ∧ bb = true then setPassWordLoop true cs
    else (if c &&& 1 = 0 then c >>> 1 else (0x80 : UInt8) + (c >>> 1)) :: setPassWordLoop (c == 32) cs

/-- gmsstrm.cpp:450-468 SetPassWord -/
def setPassWord (s : Str) : Str := setPassWordLoop false s

/-- `FPassWord[i]` of a std::string: index = length gives the terminating 0, other indices outside are undefined -/
def pwAt (pw : Str) (i : Int) : Res UInt8 :=
  if i < 0 then .ub
  else if i = pw.length then .ok 0
  else match pw[i.toNat]? with
    | some c => .ok c
    | none => .ub

/-- gmsstrm.cpp:542-547: the loop of ApplyPassWord -/
def applyLoop (pw : Str) (nxt : Int) : List UInt8 → Res (List UInt8)
  | [] => .ok []
  | c :: cs => do
    let n := if nxt + 1 > pw.length then 1 else nxt + 1
    let k ← pwAt pw n
    let r ← applyLoop pw n cs
    .ok ((c ^^^ k) :: r)

/-- gmsstrm.cpp:538-548 ApplyPassWord; `static_cast<int>(Offs)` keeps the low 32 bits, `%` truncates towards 0.
    Only called with a non-empty password. -/
def applyPassWord (pw : Str) (bs : List UInt8) (offs : Nat) : Res (List UInt8) :=
  applyLoop pw ((toI32 (offs % 4294967296)).tmod pw.length) bs

/-- gmsstrm.cpp:550-580 TXFileStream::Read and Write with a password, and SetPosition / GetPosition. For a short read
    the bytes behind the end of the file are not used. -/
def pwStep (pw : Str) (f : PFile) : SOp → Res (SOut × PFile)
  | .read n =>
    if pw = [] then .ok (f.step (.read n))
    else do
      let (bs, f') := f.read n
      let r ← applyPassWord pw bs f.pos
      .ok (.data r, f')
  | .write bs =>
    if pw = [] then .ok (f.step (.write bs))
    else do
      let w ← applyPassWord pw bs f.pos
      .ok (.none, f.write w)
  | .seek p => .ok (f.step (.seek p))
  | .getPos => .ok (f.step .getPos)

def pwRun (pw : Str) (f : PFile) : List SOp → Res (List SOut × PFile)
  | [] => .ok ([], f)
  | o :: os => do
    let (a, f) ← pwStep pw f o
    let (as, f) ← pwRun pw f os
    .ok (a :: as, f)

end Gdx
