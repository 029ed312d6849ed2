import Verif.Model.Topology

/-! # The intersection queries of locations/_topology.py -/

namespace Ocelot

/-- /repo/ocelot/transformations/locations/_topology.py:189-198 `intersected`; the set is a list without duplicates (the keys of a dictionary). -/
def Topology.intersected (T : Topology) (location : String) (excludeSelf : Bool) : Except Err (List String) :=
  if location = "GLO" ∨ location = "RoW" then .ok []
  else do
    let faces ← T.call location
    return (T.data.filter fun kv => decide ((kv.2 ∩ faces).Nonempty) && !(decide (kv.1 = location) && excludeSelf)).map (·.1)

/-- /repo/ocelot/transformations/locations/_topology.py:200-204 `intersects`. -/
def Topology.intersects (T : Topology) (parent child : String) : Except Err Bool := do
  let l ← T.intersected parent false
  return decide (child ∈ l)

end Ocelot
