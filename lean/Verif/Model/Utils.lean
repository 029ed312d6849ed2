import Verif.Model.Lists
import Verif.Model.Uncertainty

/-!
# transformations/utils.py and data_helpers.py
-/

namespace Ocelot

/-- The test inside /repo/ocelot/transformations/utils.py:65-68 (`allocatable_production`): reading
`exc['byproduct classification']` of an unclassified byproduct is a `KeyError`. -/
def isAllocatable (e : Exchange) : Except Err Bool :=
  match e.type with
  | .referenceProduct => .ok true
  | .byproduct =>
    match e.cls with
    | none => .error .keyError
    | some c => .ok (c == .allocatable)
  | _ => .ok false

/-- /repo/ocelot/transformations/utils.py:53-69 `allocatable_production`. The generator is modelled as
the complete list; the callers exhaust it, except for the two tests modelled by `anyProduction`. -/
def allocatableProduction (ds : Dataset) : Except Err (List Exchange) :=
  filterE isAllocatable ds.exchanges

/-- /repo/ocelot/transformations/utils.py:72-87 `nonproduction_exchanges`. -/
def nonproductionExchanges (ds : Dataset) : Except Err (List Exchange) :=
  filterE (fun e => do let b ← isAllocatable e; return !b) ds.exchanges

/-- The reference product exchanges of a dataset, utils.py:94-95. -/
def referenceProducts (ds : Dataset) : List Exchange :=
  ds.exchanges.filter fun e => e.type == .referenceProduct

/-- /repo/ocelot/transformations/utils.py:90-102 `get_single_reference_product`. -/
def getSingleReferenceProduct (ds : Dataset) : Except Err Exchange :=
  match referenceProducts ds with
  | [] => .error .valueError
  | [e] => .ok e
  | _ :: _ :: _ => .error .invalidMultioutputDataset

/-- utils.py:147-152: the list of ratios before sorting. -/
def pvRatios : List Exchange → Except Err (List ℚ)
  | [] => .ok []
  | e :: l =>
    if e.type = .referenceProduct ∧ e.amount ≠ 0 then do
      let pv ← getKey e.pv
      let r ← pvRatios l
      return pv.amount / e.amount :: r
    else pvRatios l

/-- /repo/ocelot/transformations/utils.py:137-156 `get_biggest_pv_to_exchange_ratio`.
`sorted(..., reverse=True, key=abs)` is stable, so it is an insertion sort by decreasing absolute
value. -/
def getBiggestPvRatio (ds : Dataset) : Except Err ℚ := do
  let rs ← pvRatios ds.exchanges
  match rs.insertionSort (fun a b => |b| ≤ |a|) with
  | [] => throw .zeroProduction
  | r :: _ => return r

/-- Insertion sort of names: Python's `sorted` on strings (code point order). -/
def sortNames (l : List String) : List String := l.insertionSort (· ≤ ·)

/-- /repo/ocelot/transformations/utils.py:161-165 `extract_products_as_tuple`. -/
def extractProductsAsTuple (ds : Dataset) : Except Err (List String) := do
  let l ← allocatableProduction ds
  return sortNames (l.map (·.name))

/-- /repo/ocelot/transformations/utils.py:168-172 `activity_grouper`. -/
def activityGrouper (ds : Dataset) : Except Err (String × List String) := do
  let l ← extractProductsAsTuple ds
  return (ds.name, l)

/-- /repo/ocelot/transformations/utils.py:177-184 `get_property_by_name`; `none` stands for the empty
dictionary. -/
def getPropertyByName (e : Exchange) (name : String) : Option Prop' :=
  e.properties.find? fun p => p.name == name

/-- /repo/ocelot/transformations/utils.py:187-191 `get_numerical_property`. -/
def getNumericalProperty (e : Exchange) (name : String) : Option ℚ :=
  (getPropertyByName e name).map (·.amount)

/-- The tolerance `epsilon=1e-14` of utils.py:228. -/
def normEpsilon : ℚ := 1 / 10 ^ 14

/-- /repo/ocelot/transformations/utils.py:228-243 `normalize_reference_production_amount`
(the function returns the one-element list `[dataset]`; the model returns the dataset, see
`normalizeList` for the list form). -/
def normalize (M : MathEnv) (ds : Dataset) : Except Err Dataset := do
  let product ← getSingleReferenceProduct ds
  if product.amount = 0 then throw .zeroProduction
  let factor := 1 / |product.amount|
  if |factor - 1| > normEpsilon then
    let ex ← mapE (fun e => scaleExchange M e factor) ds.exchanges
    return { ds with exchanges := ex }
  else
    return ds

/-- The list form used with `TransformationWrapper`. -/
def normalizeList (M : MathEnv) (ds : Dataset) : Except Err (List Dataset) := do
  let d ← normalize M ds
  return [d]

/-- /repo/ocelot/transformations/utils.py:251-259 `label_reference_product`. -/
def labelReferenceProduct (data : List Dataset) : Except Err (List Dataset) :=
  mapE (fun ds => do
    let e ← getSingleReferenceProduct ds
    return { ds with refProduct := some e.name }) data

/-- /repo/ocelot/transformations/utils.py:262-277 `nonreference_product`. -/
def nonreferenceProduct (e : Exchange) : Exchange :=
  { e with
    type := .droppedProduct
    amount := 0
    formula := none
    pv := none
    uncertainty := none }

/-- utils.py:304-307: the chosen exchange becomes the (certain, unclassified) reference product. -/
def chosenProduct (e : Exchange) : Exchange :=
  { e with type := .referenceProduct, uncertainty := none, cls := none }

/-- /repo/ocelot/transformations/utils.py:280-317 `choose_reference_product_exchange`.
`exc != exchange` at line 311 is Python value comparison, here `≠` on the structure. -/
def chooseReferenceProduct (M : MathEnv) (ds : Dataset) (exchange : Exchange) (factor : ℚ) :
    Except Err Dataset := do
  if exchange.amount = 0 then throw .zeroProduction
  let prod ← allocatableProduction ds
  let non ← nonproductionExchanges ds
  let scaled ← mapE (fun e => scaleExchange M e factor) non
  normalize M { ds with
    exchanges := [chosenProduct exchange]
      ++ (prod.filter fun e => e != exchange).map nonreferenceProduct ++ scaled }

/-- /repo/ocelot/transformations/utils.py:15-21 `copy_original_exchange_id`. -/
def copyOriginalExchangeId (data : List Dataset) : List Dataset :=
  data.map fun ds => { ds with exchanges := ds.exchanges.map fun e => { e with originalId := some e.id } }

/-- The production volume if there is exactly one reference product with one:
/repo/ocelot/data_helpers.py:4-18 `production_volume` with `default=None`. -/
def productionVolume (ds : Dataset) : Option ℚ :=
  match referenceProducts ds with
  | [e] => e.pv.map (·.amount)
  | _ => none

/-- /repo/ocelot/data_helpers.py:21-40 `original_production_volume` with `default=None`
(`amount` is always present in a production volume). -/
def originalProductionVolume (ds : Dataset) : Option ℚ :=
  match referenceProducts ds with
  | [e] => e.pv.map fun p => p.originalAmount.getD p.amount
  | _ => none

/-- The identifying string of /repo/ocelot/transformations/utils.py:39-47, before hashing. `lower` is
Python's `str.lower`. -/
def activityString (lower : String → String) (ds : Dataset) : String :=
  String.join ([ds.name, ds.refProduct.getD "", ds.unit.getD "", ds.location,
    ds.startDate.getD "", ds.endDate.getD ""].map lower)

/-- /repo/ocelot/transformations/utils.py:25-48 `activity_hash`, `md5` an oracle. -/
def activityHash (lower md5 : String → String) (ds : Dataset) : String :=
  md5 (activityString lower ds)

end Ocelot
