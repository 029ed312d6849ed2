import Verif.Model.Markets

/-!
# locations/market_groups.py

Logging is not modelled. Datasets are identified by their position, because the dictionary `mg_by_location` keeps the
last market group of each location.
-/

namespace Ocelot

/-- market_groups.py:43-46: the datasets of one type and product by location (`KeyError` for an unlabelled one). -/
def placesOf (kind : DsType) (r : String) (data : List Dataset) : Except Err (List (String × Dataset)) := do
  let l ← mapE withRefProduct (data.filter fun ds => ds.type == kind)
  return byLocation ((l.filter fun p => p.1 == r).map (·.2))

/-- market_groups.py:48-51: the resolved `RoW` market, empty if there is none. -/
def Topology.marketsRow (T : Topology) (markets : List (String × Dataset)) : Except Err (Finset ℕ) :=
  if "RoW" ∈ markets.map (·.1) then T.resolveRow (markets.map (·.1)) else .ok ∅

/-- market_groups.py:63-71: one turn of the inner loop; the state is the list `found`. -/
def chooseStep (T : Topology) (row : Finset ℕ) (markets : List (String × Dataset)) (loc : String) (found : List String)
    (candidate : String) : Except Err (List String) := do
  let b ← T.contains (.name loc) (.name candidate) (some found) (some row)
  if b = true ∧ (candidate ∈ markets.map (·.1) ∨ candidate ≠ loc) then return found ++ [candidate]
  return found

/-- market_groups.py:67, 71: the dataset for a location, preferring the market. -/
def candidateAt (markets groups : List (String × Dataset)) (s : String) : Except Err Dataset :=
  if s ∈ markets.map (·.1) then getKey (markets.lookup s) else getKey (groups.lookup s)

/-- market_groups.py:77-80 `sorted(to_add, key=lambda x: x['code'])`: attach the key. -/
def withCode (ds : Dataset) : Except Err (String × Dataset) := do
  let c ← getKey ds.code
  return (c, ds)

/-- market_groups.py:73-81: sort by code and describe. -/
def groupEntries (chosen : List Dataset) : Except Err (List Exchange) := do
  let keyed ← mapE withCode chosen
  mapE (fun p : String × Dataset => supplierEntry p.2) (keyed.insertionSort fun a b => a.1 ≤ b.1)

/-- market_groups.py:59-85: the market group `ds`. -/
def linkMarketGroup (T : Topology) (data : List Dataset) (r : String) (ds : Dataset) : Except Err Dataset := do
  let markets ← placesOf .market r data
  let groups ← placesOf .marketGroup r data
  let row ← T.marketsRow markets
  let ordered ← T.orderedDependencies (markets.map (·.1) ++ groups.map (·.1)) (some row)
  let found ← foldE (chooseStep T row markets ds.location) [] ordered
  let chosen ← mapE (candidateAt markets groups) found
  let entries ← groupEntries chosen
  return { ds with suppliers := if entries = [] then none else some entries }

/-- A later market group of the same product has the same location, so that `mg_by_location` forgets this one. -/
def isShadowed (data : List Dataset) (i : ℕ) (ds : Dataset) : Bool :=
  (data.drop (i + 1)).any fun d => d.type == .marketGroup && d.refProduct == ds.refProduct && d.location == ds.location

/-- market_groups.py:31-40: the names within each group. -/
def checkGroupNames (data : List Dataset) : Except Err Unit := do
  let l ← mapE withRefProduct (data.filter fun ds => ds.type == .marketGroup)
  if (groupBy (·.1) l).all fun g => (g.2.map fun p => p.2.name).dedup.length == 1 then return ()
  throw .marketGroupError

/-- /repo/ocelot/transformations/locations/market_groups.py:22-92 `link_market_group_suppliers`. Markets are not
changed and the loop reads only locations, codes and reference products of groups, so each group is computed from the
original data. -/
def linkMarketGroupSuppliers (T : Topology) (data : List Dataset) : Except Err (List Dataset) := do
  checkGroupNames data
  mapE (fun p : Dataset × ℕ =>
    if p.1.type = .marketGroup ∧ isShadowed data p.2 p.1 = false then do
      let r ← getKey p.1.refProduct
      linkMarketGroup T data r p.1
    else .ok p.1) data.zipIdx

/-- market_groups.py:100-105 `check_no_row_market_groups`. -/
def checkNoRowMarketGroups (data : List Dataset) : Except Err (List Dataset) :=
  if data.any fun ds => ds.type == .marketGroup && ds.location == "RoW" then .error .marketGroupError else .ok data

end Ocelot
