import Verif.Model.Topology
import Verif.Model.ActivityLinks

/-!
# locations/rest_of_world.py and the deletions in locations/markets.py
-/

namespace Ocelot

/-- The grouping key of /repo/ocelot/transformations/locations/rest_of_world.py:24-31: activity name and
sorted names of the production exchanges with nonzero amount. -/
def rowGrouper (ds : Dataset) : Except Err (String × List String) := do
  let l ← allocatableProduction ds
  return (ds.name, sortNames ((l.filter fun e => e.amount != 0).map (·.name)))

/-- Attach the key to a dataset. -/
def withRowKey (ds : Dataset) : Except Err ((String × List String) × Dataset) := do
  let k ← rowGrouper ds
  return (k, ds)

/-- rest_of_world.py:40-44: the volume of the other members (which all differ from `glo` in location). -/
def regionalVolume (group : List Dataset) : ℚ :=
  ((group.filter fun o => o.location != "GLO").map fun o => (originalProductionVolume o).getD 0).sum

/-- rest_of_world.py:47-51: the production volume of the reference product. -/
def relabelVolume (regional : ℚ) (e : Exchange) : Exchange :=
  if e.type = .referenceProduct then
    { e with pv := e.pv.map fun p => { p with globalAmount := some p.amount, amount := max (p.amount - regional) 0 } }
  else e

/-- rest_of_world.py:45-52: the relabelled global dataset. A missing production volume is a `KeyError`. -/
def relabelGlobal (regional : ℚ) (glo : Dataset) : Except Err Dataset := do
  let rp ← getSingleReferenceProduct glo
  let _ ← getKey rp.pv
  return { glo with exchanges := glo.exchanges.map (relabelVolume regional), location := "RoW" }

/-- Update the `GLO` member of the group with key `k`. -/
def relabelMember (k : String × List String) (regional : ℚ) (p : (String × List String) × Dataset) :
    Except Err ((String × List String) × Dataset) :=
  if p.1 = k ∧ p.2.location = "GLO" then do
    let d ← relabelGlobal regional p.2
    return (k, d)
  else .ok p

/-- rest_of_world.py:34-74: one group. The datasets carry their grouping key; the group is read from the
current state (groups are disjoint). -/
def relabelGroup (st : List ((String × List String) × Dataset)) (k : String × List String) :
    Except Err (List ((String × List String) × Dataset)) :=
  let group := (st.filter fun p => decide (p.1 = k)).map (·.2)
  if (group.head?.map (·.type)) = some .marketGroup then .ok st
  else if 1 < group.length ∧ group.any (fun d => d.location == "GLO") then do
    checkSingleGlobalDataset group
    mapE (relabelMember k (regionalVolume group)) st
  else .ok st

/-- /repo/ocelot/transformations/locations/rest_of_world.py:16-75 `relabel_global_to_row`. -/
def relabelGlobalToRow (data : List Dataset) : Except Err (List Dataset) := do
  let st ← mapE withRowKey data
  let st' ← foldE relabelGroup st ((groupBy (·.1) st).map (·.1))
  return st'.map (·.2)

/-- rest_of_world.py:83-97 `drop_zero_pv_row_datasets`. -/
def dropZeroPvRowDatasets (data : List Dataset) : List Dataset :=
  data.filter fun ds => ds.location != "RoW" || productionVolume ds != some 0 || ds.type != .market

/-- markets.py:410-420: the dataset purged from one group, if any. `next(...)` is the first `RoW` dataset. -/
def purgedOf (group : List Dataset) : Option Dataset :=
  if group.length < 2 then none
  else
    match group.find? fun ds => ds.location == "RoW" with
    | none => none
    | some row => if (originalProductionVolume row).getD 0 = 0 then some row else none

/-- A dataset with its reference product (`KeyError` if it is not labelled). -/
def withRefProduct (ds : Dataset) : Except Err (String × Dataset) := do
  let r ← getKey ds.refProduct
  return (r, ds)

/-- /repo/ocelot/transformations/locations/markets.py:404-422
`delete_global_with_zero_pv_when_regional_present`; `ds not in purge` compares by value. -/
def deleteGlobalZeroPv (kind : DsType) (data : List Dataset) : Except Err (List Dataset) := do
  let l ← mapE withRefProduct (data.filter fun ds => ds.type == kind)
  let purge := ((groupBy (·.1) l).map fun g => g.2.map (·.2)).filterMap purgedOf
  return data.filter fun ds => !purge.contains ds

end Ocelot
