import Verif.Model.RestOfWorld

/-!
# locations/markets.py

Suppliers of markets, their allocation, and market production volumes. Logging is not modelled, except where
building the message can raise.

Python's iteration order over the `set` of contained locations (markets.py:58-60) is an oracle `σ`: given the
consumer, the name of the supplying activity and the set as a list, it returns the order in which the set is
iterated. Theorems assume only that `σ` permutes its argument.
-/

namespace Ocelot

/-- A loop over `toolz.groupby(...)` whose body looks at the members of one group and changes only these, in
place. `prep` is the part of the body that is executed once per group, `upd` the part executed for each member. -/
def groupStep {κ τ : Type} [DecidableEq κ] (key : Dataset → Option κ) (prep : κ → List Dataset → Except Err τ)
    (upd : τ → Dataset → Except Err Dataset) (st : List Dataset) (k : κ) : Except Err (List Dataset) := do
  let t ← prep k (st.filter fun ds => decide (key ds = some k))
  mapE (fun ds => if key ds = some k then upd t ds else .ok ds) st

/-- The keys of `toolz.groupby(key, filter(..., data))`; `key ds = none` if `ds` does not pass the filter. -/
def groupKeys {κ : Type} [DecidableEq κ] (key : Dataset → Option κ) (data : List Dataset) : List κ :=
  (groupBy (fun k => k) (data.filterMap key)).map (·.1)

/-- /repo/ocelot/transformations/locations/markets.py:19-27 `annotate_exchange`. -/
def annotateExchange (e : Exchange) (ds : Dataset) : Exchange :=
  { e with location := some ds.location, code := ds.code.orElse fun _ => e.code, technologyLevel := ds.technologyLevel.orElse fun _ => e.technologyLevel, activity := some ds.name }

/-- markets.py:81-84: the entry for one supplying dataset. -/
def supplierEntry (ds : Dataset) : Except Err Exchange := do
  let rp ← getSingleReferenceProduct ds
  return annotateExchange rp ds

/-- markets.py:57 `sd = {o['location']: o for o in group}`. -/
def byLocation (group : List Dataset) : List (String × Dataset) :=
  dictOf (fun d : Dataset => d.location) (fun d => d) group

/-- markets.py:49-84: the new suppliers of `consumer` with one activity name. -/
def suppliersOfGroup (T : Topology) (σ : Dataset → String → List String → List String) (consumer : Dataset)
    (location : Loc) (name : String) (group : List Dataset) : Except Err (List Exchange) := do
  let _ ← noOverlaps T group
  let row ← T.resolveRow (group.map (·.location))
  let inside ← T.contained location false none (some row)
  let keys := σ consumer name (inside.dedup.filter fun k => (byLocation group).any fun p => p.1 == k)
  mapE (fun k => do
    let ds ← getKey ((byLocation group).lookup k)
    supplierEntry ds) keys

/-- markets.py:42-84: one consumer. -/
def supplyConsumer (T : Topology) (σ : Dataset → String → List String → List String) (consumersRow : Finset ℕ)
    (suppliers : List Dataset) (consumer : Dataset) : Except Err Dataset := do
  let location := if consumer.location = "RoW" then Loc.faces consumersRow else Loc.name consumer.location
  let new ← flatMapE (fun g => suppliersOfGroup T σ consumer location g.1 g.2) (groupBy (fun d : Dataset => d.name) suppliers)
  return { consumer with suppliers := some (consumer.suppliers.getD [] ++ new) }

/-- What one call of `apportion_market_suppliers_to_consumers` works with: the predicate saying which group
members are consumers, the resolved `RoW` and the suppliers. -/
structure Apportion where
  isConsumer : Dataset → Bool
  row : Finset ℕ
  suppliers : List Dataset

/-- markets.py:38-40: the decorator and the first lines of `apportion_market_suppliers_to_consumers`. -/
def apportionPrep (T : Topology) (isConsumer : Dataset → Bool) (consumers suppliers : List Dataset) :
    Except Err (Option Apportion) := do
  noGeoDuplicates consumers
  let row ← T.resolveRow (consumers.map (·.location))
  return some ⟨isConsumer, row, suppliers⟩

/-- markets.py:42-84: the loop over the consumers, seen from one dataset of the group. -/
def apportionUpd (T : Topology) (σ : Dataset → String → List String → List String) (a : Option Apportion) (ds : Dataset) :
    Except Err Dataset :=
  match a with
  | none => .ok ds
  | some a => if a.isConsumer ds then supplyConsumer T σ a.row a.suppliers ds else .ok ds

/-- markets.py:104-108: the datasets that produce recycled content (`KeyError` for an unlabelled one). -/
def recycledContentDatasets (data : List Dataset) : Except Err (List Dataset) :=
  filterE (fun ds => do
    if ds.type = .transforming then
      let r ← getKey ds.refProduct
      return rcString.toList.isSuffixOf r.toList
    else return false) data

/-- The reference product of the datasets of one kind. -/
def productIf (p : Dataset → Bool) (ds : Dataset) : Option String := if p ds then ds.refProduct else none

/-- markets.py:110-117: the checks for one product. -/
def recycledPrep (T : Topology) (rc : List Dataset) (rp : String) (markets : List Dataset) : Except Err (Option Apportion) := do
  let suppliers := rc.filter fun ds => ds.refProduct == some (rp ++ rcString)
  let _ ← noOverlaps T markets
  if suppliers = [] then return none
  apportionPrep T (fun _ => true) markets suppliers

/-- /repo/ocelot/transformations/locations/markets.py:92-118 `add_recycled_content_suppliers_to_markets`. -/
def addRecycledContentSuppliers (T : Topology) (σ : Dataset → String → List String → List String) (data : List Dataset) :
    Except Err (List Dataset) := do
  let isMarket := fun ds : Dataset => ds.type == .market
  let _ ← mapE withRefProduct (data.filter isMarket)
  let rc ← recycledContentDatasets data
  foldE (groupStep (productIf isMarket) (recycledPrep T rc) (apportionUpd T σ)) data (groupKeys (productIf isMarket) data)

/-- markets.py:140-143: which datasets get suppliers. -/
def wantsSuppliers (to_ : DsType) (ds : Dataset) : Bool := ds.type == to_ && (ds.suppliers.getD []).isEmpty

/-- markets.py:138-149: the checks for one product. -/
def addSuppliersPrep (T : Topology) (from_ to_ : DsType) (datasets : List Dataset) : Except Err (Option Apportion) := do
  let suppliers := datasets.filter fun ds => ds.type == from_
  let consumers := datasets.filter (wantsSuppliers to_)
  if consumers = [] then return none
  if to_ = .market then
    let _ ← noOverlaps T consumers
  apportionPrep T (wantsSuppliers to_) consumers suppliers

/-- /repo/ocelot/transformations/locations/markets.py:126-150 `add_suppliers_to_markets`. -/
def addSuppliersToMarkets (T : Topology) (σ : Dataset → String → List String → List String) (from_ to_ : DsType)
    (data : List Dataset) : Except Err (List Dataset) := do
  let involved := fun ds : Dataset => ds.type == from_ || ds.type == to_
  let _ ← mapE withRefProduct (data.filter involved)
  foldE (groupStep (productIf involved) (fun _ => addSuppliersPrep T from_ to_) (apportionUpd T σ)) data
    (groupKeys (productIf involved) data)

/-- markets.py:217-224: the input exchange created for one supplier of a market, `none` for a zero share. The
keys `code` and `location` must be present. -/
def marketInput (amount total : ℚ) (s : Exchange) : Except Err (List Exchange) := do
  let p ← getKey s.pv
  let f := p.amount / total
  if f = 0 then return []
  let c ← getKey s.code
  let _ ← getKey s.location
  return [{ amount := f * amount, name := s.name, unit := s.unit, type := .fromTechnosphere, tag := "intermediateExchange", code := some c }]

/-- The volume of a supplier entry (`KeyError` if absent). -/
def entryVolume (s : Exchange) : Except Err ℚ := do
  let p ← getKey s.pv
  return p.amount

/-- markets.py:199: the default volume 4321 for a single supplier without volume. -/
def defaultVolume (s : Exchange) : Exchange := { s with pv := s.pv.map fun p => { p with amount := 4321 } }

/-- /repo/ocelot/transformations/locations/markets.py:169-250 `allocate_suppliers` with the default arguments
(`is_market=True`, `exc=None`). -/
def allocateSuppliers (ds : Dataset) : Except Err Dataset := do
  let exc ← getSingleReferenceProduct ds
  let sup ← getKey ds.suppliers
  let vols ← mapE entryVolume sup
  if vols.sum = 0 then
    if sup.length ≠ 1 then return ds
    let _ ← getKey ds.refProduct
    let _ ← mapE (fun s : Exchange => getKey s.location) sup
    let sup' := sup.map defaultVolume
    let new ← flatMapE (marketInput exc.amount 4321) sup'
    return { ds with suppliers := some sup', exchanges := ds.exchanges ++ new }
  let new ← flatMapE (marketInput exc.amount vols.sum) sup
  return { ds with exchanges := ds.exchanges ++ new }

/-- markets.py:158-166 `allocate_all_market_suppliers`. -/
def allocateAllMarketSuppliers (kind : DsType) (data : List Dataset) : Except Err (List Dataset) :=
  mapE (fun ds => if ds.type = kind then allocateSuppliers ds else .ok ds) data

/-- markets.py:261-266 `get_original_pv`. -/
def entryOriginalVolume (s : Exchange) : Except Err ℚ := do
  let p ← getKey s.pv
  return p.originalAmount.getD p.amount

/-- markets.py:284-296: the new volume of the reference product. -/
def setMarketVolume (original sumAmounts : ℚ) (p : PV) : PV :=
  { p with originalTotal := some original, amount := max (sumAmounts - p.subtracted.getD 0) 0 }

/-- Apply `f` to the volume of the reference product. -/
def mapRefVolume (f : PV → PV) (e : Exchange) : Exchange :=
  if e.type = .referenceProduct then { e with pv := e.pv.map f } else e

/-- markets.py:281-296: one market. -/
def updateMarketVolume (ds : Dataset) : Except Err Dataset := do
  let rp ← getSingleReferenceProduct ds
  let sup ← getKey ds.suppliers
  let orig ← mapE entryOriginalVolume sup
  let _ ← getKey rp.pv
  let vols ← mapE entryVolume sup
  return { ds with exchanges := ds.exchanges.map (mapRefVolume (setMarketVolume orig.sum vols.sum)) }

/-- markets.py:303-305: the volume of a supplier entry that refers to the updated group. -/
def propagateVolume (code : Option String) (v : ℚ) (s : Exchange) : Except Err Exchange := do
  let c ← getKey s.code
  let d ← getKey code
  return if c = d then { s with pv := some { amount := v } } else s

/-- markets.py:300-305, seen from the dataset `other` (`members` are the positions of the market groups). -/
def propagateTo (members : List ℕ) (ds : Dataset) (v : ℚ) (p : Dataset × ℕ) : Except Err Dataset :=
  if p.2 ∈ members ∧ p.1 ≠ ds then do
    let sup ← getKey p.1.suppliers
    let sup' ← mapE (propagateVolume ds.code v) sup
    return { p.1 with suppliers := some sup' }
  else .ok p.1

/-- markets.py:281-305: one turn of the loop for market groups; datasets are identified by their position. -/
def updateGroupStep (members : List ℕ) (st : List Dataset) (i : ℕ) : Except Err (List Dataset) :=
  match st[i]? with
  | none => .ok st
  | some ds => do
    let ds' ← updateMarketVolume ds
    mapE (propagateTo members ds' ((productionVolume ds').getD 0)) (st.set i ds').zipIdx

/-- Positions of the datasets of one kind. -/
def positionsOf (kind : DsType) (data : List Dataset) : List ℕ :=
  (data.zipIdx.filter fun p => p.1.type == kind).map (·.2)

/-- markets.py:274-275: the place of a dataset in the size order, largest first. -/
def sizeRank (ordered : List String) (data : List Dataset) (i : ℕ) : ℕ :=
  match data[i]? with
  | none => 0
  | some ds => ordered.idxOf ds.location

/-- markets.py:270-279: the market groups from small to large (`list.sort(reverse=True)` is stable). -/
def groupOrder (T : Topology) (data : List Dataset) : Except Err (List ℕ) := do
  let members := positionsOf .marketGroup data
  let ordered ← T.orderedDependencies ((data.filter fun ds => ds.type == .marketGroup).map (·.location)) none
  return members.insertionSort fun i j => sizeRank ordered data j ≤ sizeRank ordered data i

/-- /repo/ocelot/transformations/locations/markets.py:253-312 `update_market_production_volumes`. -/
def updateMarketProductionVolumes (T : Topology) (kind : DsType) (data : List Dataset) : Except Err (List Dataset) :=
  if kind = .marketGroup then do
    let order ← groupOrder T data
    foldE (updateGroupStep (positionsOf kind data)) data order
  else mapE (fun ds => if ds.type = kind then updateMarketVolume ds else .ok ds) data

/-- markets.py:320-327 `delete_suppliers_list`. -/
def deleteSuppliersList (data : List Dataset) : List Dataset := data.map fun ds => { ds with suppliers := none }

/-- markets.py:334-346: the white list. -/
def canDeleteMarkets : List String :=
  ["market for heat, diffusion absorption heat pump",
   "market for heat, solar+electric, multiple-dwelling, for hot water",
   "market for heat, solar+gas, multiple-dwelling, for hot water",
   "market for heat, solar+gas, one-family house, for combined system",
   "market for heat, solar+gas, one-family house, for hot water",
   "market for heat, solar+wood, one-family house, for combined system",
   "market for nitro-compound",
   "market for petrol, 85% ethanol by volume from biomass",
   "market for refinery gas",
   "market for spent oxychlor catalyst for ethylene dichloride production",
   "market for waste emulsion paint, on wall"]

/-- markets.py:347-349 `delete_me`. -/
def isWhitelisted (ds : Dataset) : Bool := ds.type == .market && canDeleteMarkets.contains ds.name && ds.location == "GLO"

/-- markets.py:330-355 `delete_whitelisted_zero_pv_market_datsets`; the log message needs `reference product`. -/
def deleteWhitelistedMarkets (data : List Dataset) : Except Err (List Dataset) := do
  let _ ← mapE withRefProduct (data.filter isWhitelisted)
  return data.filter fun ds => !isWhitelisted ds

/-- markets.py:367-384: the confidential activities. -/
def confidentialNames : List String :=
  ["anthraquinone production",
   "burnt shale production",
   "carboxymethyl cellulose production, powder",
   "citric acid production",
   "esters of versatic acid production",
   "feldspar production",
   "latex production",
   "layered sodium silicate production, SKS-6, powder",
   "particle board production, cement bonded",
   "polycarboxylates production, 40% active substance",
   "sodium perborate production, monohydrate, powder",
   "sodium perborate production, tetrahydrate, powder",
   "sodium percarbonate production, powder",
   "wood wool boards production, cement bonded",
   "zeolite production, powder",
   "zeolite production, slurry, without water, in 50% solution state"]

/-- `pv['amount'] = 1`. -/
def unitVolume (p : PV) : PV := { p with amount := 1 }

/-- markets.py:389-395: one dataset. -/
def assignFakePv (ds : Dataset) : Except Err Dataset :=
  if ds.type = .transforming ∧ confidentialNames.contains ds.name then do
    let rp ← getSingleReferenceProduct ds
    let _ ← getKey rp.pv
    return { ds with exchanges := ds.exchanges.map (mapRefVolume unitVolume) }
  else .ok ds

/-- markets.py:363-396 `assign_fake_pv_to_confidential_datasets`. -/
def assignFakePvToConfidential (data : List Dataset) : Except Err (List Dataset) := mapE assignFakePv data

/-- /repo/ocelot/transformations/locations/cleanup.py:1-8 `correct_natural_gas_pipeline_location`. -/
def correctPipelineLocation (data : List Dataset) : List Dataset :=
  data.map fun ds =>
    if ds.type = .transforming ∧ ds.name = "transport, pipeline, long distance, natural gas" ∧ ds.location = "RER w/o DE+NL+NO" then
      { ds with location := "RER w/o DE+NL+NO+RU" }
    else ds

end Ocelot
