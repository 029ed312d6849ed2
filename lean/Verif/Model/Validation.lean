import Verif.Model.Cutoff
import Verif.Model.Params

/-!
# transformations/validation.py, production_volumes.py and cleanup.py

The checks at the start of every configuration, the volumes of allocatable byproducts and the two
functions of `transformations/cleanup.py`. The texts of the exceptions are not modelled.
-/

namespace Ocelot

/-- The set of ids in validation.py:20: how many different values a list has. -/
def distinctCount (l : List String) : ℕ := l.dedup.length

/-- /repo/ocelot/transformations/validation.py:18-22 `ensure_ids_are_unique`. -/
def ensureIdsAreUnique (data : List Dataset) : Except Err (List Dataset) :=
  if distinctCount (data.map (·.id)) ≠ data.length then .error .identicalDatasets else .ok data

/-- validation.py:46-48: one market. -/
def checkOneReferenceProduct (ds : Dataset) : Except Err Unit :=
  if (ds.exchanges.filter fun e => e.type == .referenceProduct).length ≠ 1 then .error .invalidMarket else .ok ()

/-- /repo/ocelot/transformations/validation.py:41-49 `ensure_markets_only_have_one_reference_product`. -/
def ensureMarketsOneProduct (data : List Dataset) : Except Err (List Dataset) := do
  forE checkOneReferenceProduct (data.filter fun ds => ds.type == .market)
  return data

/-- validation.py:59-65: one market. `exc != rp` compares values; `exc.get("activity link")` is false for an absent and
for an empty link. -/
def checkOwnConsumption (ds : Dataset) : Except Err Unit :=
  match ds.exchanges.filter fun e => e.type == .referenceProduct with
  | [] => .error .indexError
  | rp :: _ =>
    if ds.exchanges.any fun e => e.name == rp.name && e != rp && e.activityLink.getD "" == "" then
      .error .invalidMarketExchange
    else .ok ()

/-- /repo/ocelot/transformations/validation.py:52-66 `ensure_markets_dont_consume_their_ref_product`. -/
def ensureMarketsNoOwnConsumption (data : List Dataset) : Except Err (List Dataset) := do
  forE checkOwnConsumption (data.filter fun ds => ds.type == .market)
  return data

/-- /repo/ocelot/transformations/validation.py:69-73 the collection `validate_markets`. -/
def validateMarkets (data : List Dataset) : Except Err (List Dataset) := do
  let d ← ensureMarketsOneProduct data
  ensureMarketsNoOwnConsumption d

/-- validation.py:87 `MANDATORY`. -/
def mandatoryProperties : List String :=
  ["dry mass", "water in wet mass", "water content", "wet mass", "carbon content fossil", "carbon content non-fossil"]

/-- validation.py:91-100: the row logged for one exchange, if any. The names are sorted. `'amount' not in prop` never
holds, since the model's properties always have an amount (extraction always writes it). -/
def mandatoryRow (ds : Dataset) (e : Exchange) : Option (String × String × List String) :=
  if e.properties = [] then none
  else
    let missing := mandatoryProperties.filter fun m => !(e.properties.map (·.name)).contains m
    if missing = [] then none else some (ds.name, e.name, sortNames missing)

/-- /repo/ocelot/transformations/validation.py:76-104 `ensure_mandatory_properties`: the data, which are returned
unchanged, and the rows of the log. -/
def ensureMandatoryProperties (data : List Dataset) : List Dataset × List (String × String × List String) :=
  (data, data.flatMap fun ds => ds.exchanges.filterMap (mandatoryRow ds))

/-- validation.py:115-118: one exchange. -/
def checkVolumeGiven (e : Exchange) : Except Err Unit :=
  if e.pv.isNone then .error .invalidExchange else .ok ()

/-- validation.py:114-118: one dataset. The generator `allocatable_production` is lazy, so that the check of an earlier
exchange precedes the `KeyError` of a later one. -/
def checkVolumesGiven (ds : Dataset) : Except Err Unit :=
  forE (fun e => do
    let b ← isAllocatable e
    if b then checkVolumeGiven e else .ok ()) ds.exchanges

/-- /repo/ocelot/transformations/validation.py:112-119 `ensure_production_exchanges_have_production_volume`. -/
def ensureVolumesGiven (data : List Dataset) : Except Err (List Dataset) := do
  forE checkVolumesGiven data
  return data

/-! ## production_volumes.py -/

/-- production_volumes.py:14-15 `bp_filter`: `KeyError` for an unclassified byproduct. -/
def isAllocatableByproduct (e : Exchange) : Except Err Bool :=
  if e.type = .byproduct then do
    let c ← getKey e.cls
    return c == .allocatable
  else .ok false

/-- production_volumes.py:20-24: the new volume of one allocatable byproduct. -/
def fillVolume (scale : ℚ) (e : Exchange) : Except Err Exchange := do
  let pv ← getKey e.pv
  if pv.amount = 0 then return { e with pv := some { pv with amount := |e.amount * scale| } } else return e

/-- production_volumes.py:19-24: one exchange in the loop. -/
def fillByproduct (scale : ℚ) (e : Exchange) : Except Err Exchange := do
  let b ← isAllocatableByproduct e
  if b then fillVolume scale e else return e

/-- production_volumes.py:14-29: one dataset. -/
def fillVolumes (ds : Dataset) : Except Err Dataset := do
  let b ← anyAllocatableByproduct ds.exchanges
  if b then do
    let scale ← getBiggestPvRatio ds
    let ex ← mapE (fillByproduct scale) ds.exchanges
    return { ds with exchanges := ex }
  else return ds

/-- /repo/ocelot/transformations/production_volumes.py:8-29 `add_pv_to_allocatable_byproducts`. -/
def addPvToAllocatableByproducts (data : List Dataset) : Except Err (List Dataset) := mapE fillVolumes data

/-- /repo/ocelot/transformations/__init__.py:28-33 the collection `pv_cleanup`; `uuid` gives the ids of new parameters. -/
def pvCleanup (uuid : Exchange → String) (data : List Dataset) : Except Err (List Dataset) := do
  let d ← ensureVolumesGiven data
  let d' ← addPvToAllocatableByproducts d
  return d'.map (createPvParameters uuid)

/-! ## cleanup.py -/

/-- /repo/ocelot/transformations/cleanup.py:6-10 `ensure_all_datasets_have_production_volume`: the assertion fails for
`None` and for zero. -/
def ensureAllVolumes (data : List Dataset) : Except Err (List Dataset) := do
  forE (fun ds : Dataset => if (productionVolume ds).getD 0 = 0 then .error .assertionError else .ok ()) data
  return data

/-- cleanup.py:17-25: one exchange. -/
def deparameterizeExchange (e : Exchange) : Exchange :=
  { e with formula := none, var := none, pv := e.pv.map (fun p => { p with formula := none, var := none }), properties := [] }

/-- /repo/ocelot/transformations/cleanup.py:13-26 `deparameterize`. -/
def deparameterize (ds : Dataset) : Dataset :=
  { ds with parameters := [], exchanges := ds.exchanges.map deparameterizeExchange }

/-! ## data_helpers.py -/

/-- /repo/ocelot/data_helpers.py:43-53 `reference_products_as_string`. -/
def referenceProductsAsString (ds : Dataset) : String :=
  let names := sortNames ((referenceProducts ds).map (·.name))
  if names = [] then "None found" else "|".intercalate names

end Ocelot
