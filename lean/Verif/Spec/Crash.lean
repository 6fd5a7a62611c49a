/-!
What is left of a file when a process dies: only the first of its byte writes have arrived. Independent of the model.
-/

namespace Gdx.Spec

/-- one byte written at position `p`; a gap behind the end is filled with 0 -/
def setByte (f : List UInt8) (p : Nat) (b : UInt8) : List UInt8 := (f ++ List.replicate (p + 1 - f.length) 0).set p b

/-- byte writes, in this order -/
def arrive (f : List UInt8) (ws : List (Nat × UInt8)) : List UInt8 := ws.foldl (fun f w => setByte f w.1 w.2) f

/-- a stretch written from position `p` on, byte by byte -/
def stretch (p : Nat) : List UInt8 → List (Nat × UInt8)
  | [] => []
  | b :: bs => (p, b) :: stretch (p + 1) bs

/-- all byte writes of a list of stretches -/
def bytesOf (log : List (Nat × List UInt8)) : List (Nat × UInt8) := log.flatMap fun w => stretch w.1 w.2

end Gdx.Spec
