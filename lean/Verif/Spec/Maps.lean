/-!
Specifications of maps and sets by their operation history, independent of the model.
-/

namespace Gdx.Spec

/-- value stored last for index `i` in a history of (index, value) stores; `d` if there is none -/
def lastStored {β : Type} (d : β) (hist : List (Int × β)) (i : Int) : β :=
  match (hist.filter fun p => p.1 = i).getLast? with
  | some p => p.2
  | none => d

/-- the maximum of 0 and all stored indices -/
def highestIndex {β : Type} (hist : List (Int × β)) : Int := (hist.map Prod.fst).foldl max 0

end Gdx.Spec
