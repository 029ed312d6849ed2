import Verif.Model.Formula
import Verif.Model.Cutoff

/-!
# Combined production and the cut-off allocation pipeline

Models /repo/ocelot/transformations/cutoff/combined.py, cutoff/validation.py (the two decorators not in
`Verif.Model.Cutoff`), the `Collection` `cutoff_allocation` of cutoff/allocation.py:148-204 and
transformations/validation.py:25-38.

`recalculate` needs an evaluation order.  `ord` is the library that finds it (or raises, e.g. for cyclic
formulas).
-/

namespace Ocelot

/-- /repo/ocelot/transformations/parameterization/recalculation.py:52-83 `recalculate`, with the library
call that finds the evaluation order. -/
def recalculateO (M : MathEnv) (F : FormulaEnv) (ord : Dataset → Except Err (List String)) (ds : Dataset) :
    Except Err Dataset := do
  let o ← ord ds
  recalculate M F o ds

/-- /repo/ocelot/transformations/cutoff/combined.py:35-44 `selected_product`. -/
def selectedProduct (e : Exchange) : Exchange := { e with formula := none, uncertainty := none }

/-- /repo/ocelot/transformations/cutoff/combined.py:28-32 `nonzero_reference_product_exchanges`. -/
def nonzeroReferenceProducts (ds : Dataset) : List Exchange :=
  ds.exchanges.filter fun e => e.type == .referenceProduct && e.amount != 0

/-- /repo/ocelot/transformations/cutoff/combined.py:69-77: the copy of the dataset for one product, before
recalculation. `obj != exc` is value comparison. -/
def subdivided (ds : Dataset) (e : Exchange) : Dataset :=
  { ds with exchanges := [selectedProduct e]
      ++ (ds.exchanges.filter fun o => o.type == .referenceProduct && o != e).map nonreferenceProduct
      ++ ds.exchanges.filter fun o => o.type != .referenceProduct }

/-- /repo/ocelot/transformations/cutoff/combined.py:47-83 `combined_production`. -/
def combinedProduction (M : MathEnv) (F : FormulaEnv) (ord : Dataset → Except Err (List String))
    (ds : Dataset) : Except Err (List Dataset) :=
  mapE (fun e => recalculateO M F ord (subdivided ds e)) (nonzeroReferenceProducts ds)

/-- combined.py:94-100, the choice by classification. -/
def splitBy (M : MathEnv) (ds : Dataset) (rp : Exchange) : Option Cls → Except Err (List Dataset)
  | none => .error .keyError
  | some .waste => wasteTreatmentAllocation M ds
  | some .recyclable => recyclingAllocation M { ds with name := ds.name ++ ", from " ++ rp.name }
  | some .allocatable => .error .invalidExchange

/-- /repo/ocelot/transformations/cutoff/combined.py:91-100 `handle_split_dataset`. -/
def handleSplitDataset (M : MathEnv) (ds : Dataset) : Except Err (List Dataset) := do
  let rp ← getSingleReferenceProduct ds
  splitBy M ds rp rp.cls

/-- /repo/ocelot/transformations/cutoff/combined.py:103-137 `combined_production_without_products`. -/
def combinedWithoutProducts (M : MathEnv) (F : FormulaEnv) (ord : Dataset → Except Err (List String))
    (ds : Dataset) : Except Err (List Dataset) := do
  let l ← combinedProduction M F ord ds
  flatMapE (handleSplitDataset M) l

/-- The dictionary `{exc['id']: exc['amount'] ...}` of combined.py:148 read with `.get(id, 0)`. -/
def idAmount (ds : Dataset) (i : String) : ℚ :=
  ((dictOf (fun e : Exchange => e.id) (fun e => e.amount) ds.exchanges).lookup i).getD 0

/-- combined.py:150-153, one exchange. -/
def addTo (d : Dataset) (e : Exchange) : Exchange :=
  if e.type = .referenceProduct then { e with amount := e.amount + idAmount d e.id, uncertainty := none }
  else { e with amount := e.amount + idAmount d e.id }

/-- /repo/ocelot/transformations/cutoff/combined.py:140-154 `add_exchanges`. -/
def addExchanges (t d : Dataset) : Dataset := { t with exchanges := t.exchanges.map (addTo d) }

/-- The check of /repo/ocelot/transformations/cutoff/validation.py:22-30 `valid_merge_datasets` for one
dataset. -/
def checkMergeable (ds : Dataset) : Except Err Unit := do
  let b ← anyAllocatableByproduct ds.exchanges
  if b then throw .invalidExchange else return ()

/-- combined.py:173-177: merging one group. The group is never empty. -/
def mergeGroup : List Dataset → List Dataset
  | [] => []
  | parent :: rest => [rest.foldl addExchanges parent]

/-- Evaluating a key that may raise. -/
def withKey {κ : Type} (key : Dataset → Except Err κ) (ds : Dataset) : Except Err (κ × Dataset) := do
  let k ← key ds
  return (k, ds)

/-- /repo/ocelot/transformations/cutoff/combined.py:158-177 `merge_byproducts` (the list of everything it
yields). -/
def mergeByproducts (data : List Dataset) : Except Err (List Dataset) := do
  forE checkMergeable data
  let keyed ← mapE (withKey activityGrouper) data
  return (groupBy (fun p : (String × List String) × Dataset => p.1) keyed).flatMap fun g => mergeGroup (g.2.map (·.2))

/-- /repo/ocelot/transformations/cutoff/combined.py:180-189 `combined_production_with_byproducts`. -/
def combinedWithByproducts (M : MathEnv) (F : FormulaEnv) (ord : Dataset → Except Err (List String))
    (ds : Dataset) : Except Err (List Dataset) := do
  let l ← combinedProduction M F ord ds
  let a ← flatMapE (economicAllocation M) l
  mergeByproducts a

/-! ## validation.py, allocation.py -/

/-- The generator of transformations/validation.py:31-33: same as in the recycling check. -/
def checkSingleOutputActivity (ds : Dataset) : Except Err Unit := do
  let b ← anyAllocatableByproduct ds.exchanges
  if (referenceProducts ds).length ≠ 1 then throw .invalidMultioutputDataset
  if b then throw .invalidMultioutputDataset
  return ()

/-- /repo/ocelot/transformations/cutoff/allocation.py:26-30 `no_allocation` with its decorator
(cutoff/validation.py:13-18). -/
def noAllocation (ds : Dataset) : Except Err (List Dataset) := do
  checkSingleOutputActivity ds
  return [ds]

/-- An element of the list that `TransformationWrapper` builds. `constrained_market_allocation` returns the
dataset dictionary instead of a list, so that the wrapper iterates over its keys. -/
inductive Item where
  | ds (d : Dataset)
  | str (s : String)
  deriving DecidableEq, Repr

/-- Iterating over a dataset dictionary yields its keys (some of them, in the order of extraction). -/
def dictKeys : List String :=
  ["filepath", "parent", "type", "id", "name", "location", "exchanges", "parameters", "allocation method"]

/-- cutoff/allocation.py:148-160 `ALLOCATION_METHODS[1:]`: the methods that return lists of datasets, as a
function from label to behaviour. -/
def datasetMethod (M : MathEnv) (F : FormulaEnv) (ord : Dataset → Except Err (List String))
    (label : String) (ds : Dataset) : Except Err (List Dataset) :=
  if label = "market group" then noAllocation ds
  else if label = "unconstrained market" then noAllocation ds
  else if label = "economic" then economicAllocation M ds
  else if label = "recycling" then recyclingAllocation M ds
  else if label = "waste treatment" then wasteTreatmentAllocation M ds
  else if label = "combined production without products" then combinedWithoutProducts M F ord ds
  else if label = "combined production" then combinedProduction M F ord ds
  else if label = "combined production with byproducts" then combinedWithByproducts M F ord ds
  else .error .keyError

/-- cutoff/allocation.py:148-160 `ALLOCATION_METHODS[1:]` with `constrained_market_allocation`. -/
def allocationMethod (M : MathEnv) (F : FormulaEnv) (ord : Dataset → Except Err (List String))
    (label : String) (ds : Dataset) : Except Err (List Item) := do
  if label = "constrained market" then return dictKeys.map .str
  else
    let l ← datasetMethod M F ord label ds
    return l.map .ds

/-- `TransformationWrapper.__call__` (/repo/ocelot/wrapper.py:27-32) with the filter of
cutoff/allocation.py:188-194, one element: indexing a string with a string is a `TypeError`. -/
def methodStep (M : MathEnv) (F : FormulaEnv) (ord : Dataset → Except Err (List String)) (label : String) :
    Item → Except Err (List Item)
  | .str _ => .error .typeError
  | .ds d => do
    let m ← getKey d.allocationMethod
    if m = label then allocationMethod M F ord label d else return [.ds d]

/-- The wrapped methods applied one after another, in the order of ALLOCATION_METHODS[1:]. -/
def runMethods (M : MathEnv) (F : FormulaEnv) (ord : Dataset → Except Err (List String)) :
    List String → List Item → Except Err (List Item)
  | [], items => .ok items
  | l :: ls, items => do
    let items' ← flatMapE (methodStep M F ord l) items
    runMethods M F ord ls items'

/-- /repo/ocelot/transformations/cutoff/allocation.py:163-180 `label_allocation_method`. -/
def labelAllocationMethod (data : List Dataset) : Except Err (List Dataset) :=
  mapE (fun ds => do
    let m ← chooseAllocationMethod ds
    return { ds with allocationMethod := some m }) data

/-- /repo/ocelot/transformations/cutoff/utils.py:40-44 `delete_allocation_method`; a string is either
passed through or raises `TypeError` at `del`. -/
def deleteAllocationMethod : Item → Except Err Item
  | .str s => if s = "allocation method" then .error .typeError else .ok (.str s)
  | .ds d => .ok (.ds { d with allocationMethod := none })

/-- /repo/ocelot/transformations/cutoff/allocation.py:197-204 `cutoff_allocation`. -/
def cutoffAllocation (M : MathEnv) (F : FormulaEnv) (ord : Dataset → Except Err (List String))
    (data : List Dataset) : Except Err (List Item) := do
  let l ← labelAllocationMethod data
  let items ← runMethods M F ord (allocationLabels.drop 1) (l.map .ds)
  mapE deleteAllocationMethod items

end Ocelot
