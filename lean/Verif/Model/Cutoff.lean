import Verif.Model.Utils

/-!
# Cut-off allocation: economic, recycling, waste treatment, sign and clean-up functions

Models /repo/ocelot/transformations/cutoff/{economic,utils,validation,wastes,markets,cleanup}.py and
`choose_allocation_method` of cutoff/allocation.py.  Logging is not modelled here.
-/

namespace Ocelot

/-- The truth value of `exc.get('activity link')`: absent and empty are false. -/
def truthy : Option String → Bool
  | none => false
  | some s => s != ""

/-! ## economic.py -/

/-- The checks of /repo/ocelot/transformations/cutoff/validation.py:34-52 `valid_economic_activity` for
one exchange. -/
def checkEconomicExchange (e : Exchange) : Except Err Unit :=
  match getNumericalProperty e "price" with
  | none => .error .invalidExchange
  | some p =>
    if p < 0 then .error .invalidExchange
    else if e.amount < 0 then .error .invalidExchange
    else .ok ()

/-- Column `price` of /repo/ocelot/transformations/utils.py:216 (default 0). -/
def price (e : Exchange) : ℚ := (getNumericalProperty e "price").getD 0

/-- Column `has true value`, utils.py:217. -/
def hasTrueValue (e : Exchange) : Bool := (getPropertyByName e "true value relation").isSome

/-- Column `true value`, utils.py:218-219 (default 0). -/
def trueValue (e : Exchange) : ℚ := (getNumericalProperty e "true value relation").getD 0

/-- Column `revenue`, utils.py:222. -/
def revenue (e : Exchange) : ℚ := price e * e.amount

/-- /repo/ocelot/transformations/cutoff/economic.py:41-51: the list of allocation factors. pandas
divides by a zero sum without raising and yields NaN (or infinity); this is `.error .nanValue`. An
empty data frame has no column `price`: `KeyError`. `use_true_value` is True in all calls. -/
def economicFactors (prod : List Exchange) : Except Err (List ℚ) :=
  if prod = [] then .error .keyError
  else
    let total := (prod.map revenue).sum
    if total = 0 then .error .nanValue
    else
      let tvSum := (prod.map fun e => trueValue e * e.amount).sum
      let tvRev := ((prod.filter hasTrueValue).map revenue).sum
      if prod.any hasTrueValue ∧ tvSum = 0 then .error .nanValue
      else .ok (prod.map fun e =>
        if hasTrueValue e then trueValue e * e.amount / tvSum * (tvRev / total)
        else revenue e / total)

/-- /repo/ocelot/transformations/cutoff/utils.py:8-17 `apply_allocation_factors`. -/
def applyAllocationFactors (M : MathEnv) (ds : Dataset) (fs : List (ℚ × Exchange)) :
    Except Err (List Dataset) :=
  mapE (fun p => chooseReferenceProduct M ds p.2 p.1) fs

/-- /repo/ocelot/transformations/cutoff/economic.py:11-55 `economic_allocation` with its decorator
`valid_economic_activity`. -/
def economicAllocation (M : MathEnv) (ds : Dataset) : Except Err (List Dataset) := do
  let prod ← allocatableProduction ds
  forE checkEconomicExchange prod
  let fs ← economicFactors prod
  applyAllocationFactors M ds (fs.zip prod)

/-! ## wastes.py -/

/-- cutoff/wastes.py:36: the single reference product becomes a technosphere input with opposite sign.
`get_single_reference_product` has established that exactly one exchange has this type. -/
def recyclingInput (M : MathEnv) (e : Exchange) : Except Err Exchange :=
  if e.type = .referenceProduct then scaleExchange M { e with type := .fromTechnosphere } (-1)
  else .ok e

/-- The test of cutoff/validation.py:70-76, raising `KeyError` for an unclassified byproduct. The
generator is consumed up to the first hit; the model evaluates it up to there as well. -/
def anyAllocatableByproduct : List Exchange → Except Err Bool
  | [] => .ok false
  | e :: l =>
    if e.type = .byproduct then
      match e.cls with
      | none => .error .keyError
      | some .allocatable => .ok true
      | some _ => anyAllocatableByproduct l
    else anyAllocatableByproduct l

/-- /repo/ocelot/transformations/cutoff/wastes.py:20-37 `recycling_allocation` with its decorator
`valid_recycling_activity` (cutoff/validation.py:56-79). -/
def recyclingAllocation (M : MathEnv) (ds : Dataset) : Except Err (List Dataset) := do
  let rp ← getSingleReferenceProduct ds
  if ¬ rp.amount < 0 then throw .invalidExchange
  let b ← anyAllocatableByproduct ds.exchanges
  if b = false then throw .invalidExchange
  let ex ← mapE (recyclingInput M) ds.exchanges
  economicAllocation M { ds with exchanges := ex }

/-- cutoff/wastes.py:67-72 `free_byproduct`. -/
def freeByproduct (M : MathEnv) (ds : Dataset) (e : Exchange) : Except Err Dataset :=
  chooseReferenceProduct M { ds with exchanges := [e] } e 1

/-- /repo/ocelot/transformations/cutoff/wastes.py:59-81 `waste_treatment_allocation` with its decorator
(cutoff/validation.py:83-99). `exchange is not rp` selects the production exchanges other than the
single reference product, i.e. the allocatable byproducts. -/
def wasteTreatmentAllocation (M : MathEnv) (ds : Dataset) : Except Err (List Dataset) := do
  let rp ← getSingleReferenceProduct ds
  if rp.cls ≠ some .waste then throw .invalidExchange
  if ¬ rp.amount < 0 then throw .invalidExchange
  let first ← chooseReferenceProduct M ds rp 1
  let prod ← allocatableProduction ds
  let free ← mapE (freeByproduct M ds) (prod.filter fun e => e.type != .referenceProduct)
  return first :: free

/-- The suffix `RC_STRING`, /repo/ocelot/transformations/cutoff/__init__.py:10. -/
def rcString : String := ", Recycled Content cut-off"

/-- cutoff/wastes.py:91-95: is this a recyclable byproduct (KeyError when unclassified)? -/
def isRecyclableByproduct (e : Exchange) : Except Err Bool :=
  if e.type = .byproduct then
    match e.cls with
    | none => .error .keyError
    | some c => .ok (c == .recyclable)
  else .ok false

/-- /repo/ocelot/transformations/cutoff/wastes.py:84-99 `rename_recyclable_content_exchanges`, one
exchange. -/
def renameRecyclable (e : Exchange) : Except Err Exchange := do
  let b ← isRecyclableByproduct e
  return if b then { e with name := e.name ++ rcString } else e

/-- /repo/ocelot/transformations/cutoff/wastes.py:84-99 `rename_recyclable_content_exchanges`. -/
def renameRecyclableContentExchanges (data : List Dataset) : Except Err (List Dataset) :=
  mapE (fun ds => do
    let ex ← mapE renameRecyclable ds.exchanges
    return { ds with exchanges := ex }) data

/-- `str.replace(sub, "")` on characters: leftmost, non-overlapping occurrences are removed. -/
def removeSub (sub : List Char) (fuel : Nat) (l : List Char) : List Char :=
  match fuel, l with
  | 0, l => l
  | _, [] => []
  | n + 1, c :: l =>
    if sub.isPrefixOf (c :: l) then removeSub sub n ((c :: l).drop sub.length)
    else c :: removeSub sub n l

/-- `name.replace(RC_STRING, "") if name.endswith(RC_STRING) else name`, cutoff/wastes.py:108-109 and
114-115. `fuel` is the length of the string, an upper bound on the number of scanning steps. -/
def stripRc (name : String) : String :=
  if rcString.toList.isSuffixOf name.toList then
    String.ofList (removeSub rcString.toList name.toList.length name.toList)
  else name

/-- /repo/ocelot/transformations/cutoff/wastes.py:102-120
`rename_recycled_content_products_after_linking`. -/
def renameRecycledContentAfterLinking (data : List Dataset) : List Dataset :=
  data.map fun ds => { ds with
    exchanges := ds.exchanges.map fun e => { e with name := stripRc e.name }
    refProduct := ds.refProduct.map stripRc }

/-- /repo/ocelot/transformations/cutoff/wastes.py:128-150 `create_new_recycled_content_dataset`. The
copied metadata keys are the ones in `common`; those collected in `extra` are assumed present. -/
def newRecycledContentDataset (ds : Dataset) (e : Exchange) : Except Err Dataset := do
  let sd ← getKey ds.startDate
  let ed ← getKey ds.endDate
  let tl ← getKey ds.technologyLevel
  return {
    name := e.name
    location := "GLO"
    type := .transforming
    exchanges := [{ amount := 1, id := e.id, name := e.name, tag := "intermediateExchange", type := .referenceProduct, pv := some { amount := 4 }, unit := e.unit }]
    parameters := []
    id := ds.id
    filepath := ds.filepath
    refProduct := some e.name
    startDate := some sd
    endDate := some ed
    technologyLevel := some tl
    extra := ds.extra }

/-- cutoff/wastes.py:158-165: all recycled content datasets in iteration order, before the dictionary
keeps one per name. -/
def recycledContentCandidates (data : List Dataset) : Except Err (List Dataset) :=
  flatMapE (fun ds => do
    let recs ← filterE isRecyclableByproduct ds.exchanges
    mapE (newRecycledContentDataset ds) recs) data

/-- /repo/ocelot/transformations/cutoff/wastes.py:153-171 `create_recycled_content_datasets`. -/
def createRecycledContentDatasets (data : List Dataset) : Except Err (List Dataset) := do
  let c ← recycledContentCandidates data
  return data ++ (dictOf (fun d : Dataset => d.name) (fun d => d) c).map (·.2)

/-- /repo/ocelot/transformations/cutoff/wastes.py:211-216 `handle_waste_outputs`. -/
def handleWasteOutputs (data : List Dataset) : Except Err (List Dataset) := do
  let d ← renameRecyclableContentExchanges data
  createRecycledContentDatasets d

/-- cutoff/wastes.py:191-202: one exchange of `flip_non_allocatable_byproducts`. The uncertainty
dictionary is not touched (there is a TODO in the code). -/
def flipExchange (e : Exchange) : Except Err Exchange :=
  if e.type = .byproduct then
    match e.cls with
    | none => .error .keyError
    | some .allocatable => .ok e
    | some _ => .ok { e with
        cls := none
        type := .fromTechnosphere
        amount := -1 * e.amount
        formula := e.formula.map fun f => "-1 * (" ++ f ++ ")" }
  else .ok e

/-- /repo/ocelot/transformations/cutoff/wastes.py:180-203 `flip_non_allocatable_byproducts`
(`single_input` makes it a function on lists of datasets). -/
def flipNonAllocatableByproducts (data : List Dataset) : Except Err (List Dataset) :=
  mapE (fun ds => do
    let ex ← mapE flipExchange ds.exchanges
    return { ds with exchanges := ex }) data

/-! ## markets.py -/

/-- /repo/ocelot/transformations/cutoff/markets.py:9-27 `constrained_market_allocation`. Python returns
the dictionary itself, not a list: see `Verif.Model.Combined`. -/
def zeroConditional (ds : Dataset) : Dataset :=
  { ds with exchanges := ds.exchanges.map fun e =>
      if e.type = .byproduct ∧ e.conditional = some true then nonreferenceProduct e else e }

/-- /repo/ocelot/transformations/cutoff/markets.py:35-68, the body of the loop of
`adjust_market_signs_for_allocatable_products`. -/
def adjustMarketSigns (M : MathEnv) (ds : Dataset) : Except Err Dataset :=
  if ds.type = .market then do
    let rp ← getSingleReferenceProduct ds
    let cls ← getKey rp.cls
    if cls ≠ .waste ∧ ds.exchanges.all (fun e => decide (e.amount ≤ 0)) then
      let ex ← mapE (fun e => scaleExchange M e (-1)) ds.exchanges
      return { ds with exchanges := ex }
    else if cls ≠ .waste ∧ rp.amount < 0 then
      let ex ← mapE (fun e => if e.name = rp.name then scaleExchange M e (-1) else .ok e) ds.exchanges
      return { ds with exchanges := ex }
    else return ds
  else return ds

/-- /repo/ocelot/transformations/cutoff/markets.py:35-68. -/
def adjustMarketSignsAll (M : MathEnv) (data : List Dataset) : Except Err (List Dataset) :=
  mapE (adjustMarketSigns M) data

/-! ## cleanup.py -/

/-- cutoff/cleanup.py:10-19, one exchange. -/
def dropZeroLink (e : Exchange) : Exchange :=
  if e.amount = 0 ∧ truthy e.activityLink = true then { e with activityLink := none } else e

/-- /repo/ocelot/transformations/cutoff/cleanup.py:7-20 `drop_zero_amount_activity_links`. -/
def dropZeroAmountActivityLinks (data : List Dataset) : List Dataset :=
  data.map fun ds => { ds with exchanges := ds.exchanges.map dropZeroLink }

/-- cutoff/cleanup.py:36-45, one exchange. -/
def dropRpLink (e : Exchange) : Exchange :=
  if (e.type = .referenceProduct ∨ e.type = .droppedProduct) ∧ truthy e.activityLink = true
  then { e with activityLink := none } else e

/-- /repo/ocelot/transformations/cutoff/cleanup.py:28-46 `drop_rp_activity_links`. -/
def dropRpActivityLinks (data : List Dataset) : List Dataset :=
  data.map fun ds => { ds with exchanges := ds.exchanges.map dropRpLink }

/-- /repo/ocelot/transformations/cutoff/cleanup.py:54-59 `has_consequential_property`. -/
def hasConsequentialProperty (e : Exchange) : Bool :=
  e.properties.any fun p => p.name == "consequential" && p.amount == 1

/-- /repo/ocelot/transformations/cutoff/cleanup.py:62-76 `remove_consequential_exchanges`. -/
def removeConsequentialExchanges (data : List Dataset) : List Dataset :=
  data.map fun ds => { ds with exchanges := ds.exchanges.filter fun e => !hasConsequentialProperty e }

/-! ## allocation.py -/

/-- The name tested at cutoff/allocation.py:132-133. -/
def rareEarthName : String := "rare earth oxides production from bastnäsite concentrate"

/-- `any(1 for exc in allocatable_production(dataset) if p(exc))`, cutoff/allocation.py:98-103: the generator is consumed up to the
first hit, so that an unclassified byproduct behind it does no harm. -/
def anyProduction (p : Exchange → Bool) : List Exchange → Except Err Bool
  | [] => .ok false
  | e :: l => do
    let b ← isAllocatable e
    if b && p e then return true else anyProduction p l

/-- /repo/ocelot/transformations/cutoff/allocation.py:43-145 `choose_allocation_method`. The unused
locals of lines 105-110 are left out. `exc.get('conditional exchange')` is a boolean when present. -/
def chooseAllocationMethod (ds : Dataset) : Except Err String := do
  let clss := ((ds.exchanges.filter fun e => e.type == .referenceProduct && e.amount != 0).map (·.cls))
  let negative := ds.exchanges.any fun e => e.type == .referenceProduct && decide (e.amount < 0)
  let allocByproducts ← anyProduction (fun e => e.type == .byproduct && e.amount != 0) ds.exchanges
  let allocProducts ← anyProduction (fun e => e.type == .referenceProduct && e.cls == some .allocatable) ds.exchanges
  let conditional := ds.exchanges.any fun e => e.conditional == some true
  if clss.length = 1 ∧ allocByproducts = false then return "single product"
  else if ds.type = .marketGroup then return "market group"
  else if ds.type = .market then
    if conditional then return "constrained market" else return "unconstrained market"
  else if clss.length > 1 then
    if allocProducts = false then return "combined production without products"
    else if allocByproducts then return "combined production with byproducts"
    else if ds.name = rareEarthName then return "economic"
    else return "combined production"
  else if negative then
    if clss.dedup.length ≠ 1 then throw .assertionError
    match clss with
    | [] => throw .indexError
    | c :: _ => if c = some .waste then return "waste treatment" else return "recycling"
  else return "economic"

/-- The labels of ALLOCATION_METHODS, cutoff/allocation.py:148-160. -/
def allocationLabels : List String :=
  ["single product", "market group", "unconstrained market", "economic", "constrained market",
   "recycling", "waste treatment", "combined production without products", "combined production",
   "combined production with byproducts"]

end Ocelot
