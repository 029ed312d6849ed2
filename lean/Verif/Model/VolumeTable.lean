import Verif.Model.Markets
import Verif.Model.ReportRows

/-!
# The table of `update_market_production_volumes`

locations/markets.py once more, with the rows that are logged.
-/

namespace Ocelot

/-- markets.py:307-311: one row, with the columns of markets.py:314-317. -/
structure VolumeRow where
  name : String
  product : String
  location : String
  /-- `Original` -/
  original : ℚ
  /-- `Input subtractions` -/
  inputs : ℚ
  /-- `Market subtractions` -/
  market : ℚ
  /-- `Net` -/
  net : ℚ
  deriving DecidableEq, Repr

/-- markets.py:288-291: the volume that is bound by hard links to a supplier. -/
def entrySubtracted (s : Exchange) : Except Err ℚ := do
  let p ← getKey s.pv
  return p.subtracted.getD 0

/-- markets.py:281-311: one market with its row. -/
def updateVolumeL (ds : Dataset) : Except Err (Log VolumeRow × Dataset) := do
  let rp ← getSingleReferenceProduct ds
  let sup ← getKey ds.suppliers
  let orig ← mapE entryOriginalVolume sup
  let p ← getKey rp.pv
  let subs ← mapE entrySubtracted sup
  let vols ← mapE entryVolume sup
  return ([(.ocelot, ⟨ds.name, rp.name, ds.location, orig.sum, subs.sum, p.subtracted.getD 0, max (vols.sum - p.subtracted.getD 0) 0⟩)],
    { ds with exchanges := ds.exchanges.map (mapRefVolume (setMarketVolume orig.sum vols.sum)) })

/-- markets.py:281-311: one turn of the loop for market groups; the row is logged after the other groups have been updated. -/
def updateGroupStepL (members : List ℕ) (st : Log VolumeRow × List Dataset) (i : ℕ) : Except Err (Log VolumeRow × List Dataset) :=
  match st.2[i]? with
  | none => .ok st
  | some ds => do
    let r ← updateVolumeL ds
    let next ← mapE (propagateTo members r.2 ((productionVolume r.2).getD 0)) (st.2.set i r.2).zipIdx
    return (st.1 ++ r.1, next)

/-- /repo/ocelot/transformations/locations/markets.py:253-312 `update_market_production_volumes`. -/
def updateVolumesL (T : Topology) (kind : DsType) (data : List Dataset) : Except Err (Log VolumeRow × List Dataset) :=
  if kind = .marketGroup then do
    let order ← groupOrder T data
    foldE (updateGroupStepL (positionsOf kind data)) ([], data) order
  else mapL (fun ds => if ds.type = kind then updateVolumeL ds else .ok ([], ds)) data

end Ocelot
