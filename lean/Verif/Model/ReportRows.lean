import Verif.Model.Consequential
import Verif.Model.Combined
import Verif.Model.Linking
import Verif.Model.Markets
import Verif.Model.Validation

/-!
# What the transformation functions write into the log

The transformation functions once more, now with the elements of the report's tables that they log. A log is the list of logged tuples, each with the logger it was sent
to: `logging.getLogger('ocelot')` is the logger of the model run, whose lines end up in the report (/repo/ocelot/logger.py:44-53, /repo/ocelot/report.py:95-127), the functions
of the module `logging` use the root logger, which has nothing to do with it. A function that raises stops the run, so that there is no report: only the log of a call that
returns is kept.
-/

namespace Ocelot

/-- The logger a line is sent to. -/
inductive Channel where
  | ocelot
  | root
  deriving DecidableEq, Repr

/-- Logged tuples, in order. -/
abbrev Log (ρ : Type) := List (Channel × ρ)

/-- The tuples that end up in the report: those sent to the logger `ocelot`, /repo/ocelot/logger.py:44-53. -/
def Log.reported {ρ : Type} (l : Log ρ) : List ρ := (l.filter fun p => p.1 == .ocelot).map (·.2)

/-- A loop that logs. -/
def mapL {α β ρ : Type} (f : α → Except Err (Log ρ × β)) : List α → Except Err (Log ρ × List β)
  | [] => .ok ([], [])
  | a :: l => do
    let b ← f a
    let r ← mapL f l
    return (b.1 ++ r.1, b.2 :: r.2)

/-- A loop over the exchanges of a dataset. -/
def exchangesL {ρ : Type} (f : Exchange → Except Err (Log ρ × Exchange)) (ds : Dataset) : Except Err (Log ρ × Dataset) := do
  let r ← mapL f ds.exchanges
  return (r.1, { ds with exchanges := r.2 })

/-! ## cutoff/cleanup.py -/

/-- /repo/ocelot/transformations/cutoff/cleanup.py:7-20 `drop_zero_amount_activity_links`. -/
def dropZeroLinksL (data : List Dataset) : Except Err (Log (String × String) × List Dataset) :=
  mapL (fun ds => exchangesL (fun e =>
    if e.amount = 0 ∧ truthy e.activityLink = true then .ok ([(.ocelot, ds.name, e.name)], { e with activityLink := none }) else .ok ([], e)) ds) data

/-- /repo/ocelot/transformations/cutoff/cleanup.py:28-46 `drop_rp_activity_links`. -/
def dropRpLinksL (data : List Dataset) : Except Err (Log (String × String) × List Dataset) :=
  mapL (fun ds => exchangesL (fun e =>
    if (e.type = .referenceProduct ∨ e.type = .droppedProduct) ∧ truthy e.activityLink = true then .ok ([(.ocelot, ds.name, e.name)], { e with activityLink := none })
    else .ok ([], e)) ds) data

/-- /repo/ocelot/transformations/cutoff/cleanup.py:62-76 `remove_consequential_exchanges`: a loop that logs, and then the selection. -/
def removeConsequentialL (data : List Dataset) : Except Err (Log (String × String × ℚ) × List Dataset) :=
  mapL (fun ds => .ok ((ds.exchanges.filter hasConsequentialProperty).map fun e => (.ocelot, ds.name, e.name, e.amount),
    { ds with exchanges := ds.exchanges.filter fun e => !hasConsequentialProperty e })) data

/-! ## activity_links.py -/

/-- activity_links.py:209-216: one exchange. -/
def redirectL (ds : Dataset) (parent : String) (e : Exchange) : Except Err (Log (String × String × ℚ) × Exchange) := do
  let b ← isAllocatable e
  if b then return ([], e)
  else if e.activityLink = some parent then return ([(.ocelot, ds.name, ds.location, e.amount)], { e with activityLink := some ds.id })
  else return ([], e)

/-- /repo/ocelot/transformations/activity_links.py:193-216 `update_activity_link_parent_child`. -/
def updateParentChildL (data : List Dataset) : Except Err (Log (String × String × ℚ) × List Dataset) :=
  mapL (fun ds =>
    match ds.parent with
    | none => .ok ([], ds)
    | some p => if p = "" then .ok ([], ds) else exchangesL (redirectL ds p) ds) data

/-! ## production_volumes.py -/

/-- production_volumes.py:19-28: one exchange. -/
def fillVolumeL (ds : Dataset) (scale : ℚ) (e : Exchange) : Except Err (Log (String × String × ℚ) × Exchange) := do
  let b ← isAllocatableByproduct e
  if b then
    let pv ← getKey e.pv
    if pv.amount = 0 then
      return ([(.ocelot, ds.name, e.name, |e.amount * scale|)], { e with pv := some { pv with amount := |e.amount * scale| } })
    else return ([], e)
  else return ([], e)

/-- /repo/ocelot/transformations/production_volumes.py:8-29 `add_pv_to_allocatable_byproducts`. -/
def addPvL (data : List Dataset) : Except Err (Log (String × String × ℚ) × List Dataset) :=
  mapL (fun ds => do
    let b ← anyAllocatableByproduct ds.exchanges
    if b then
      let scale ← getBiggestPvRatio ds
      exchangesL (fillVolumeL ds scale) ds
    else return ([], ds)) data

/-! ## cutoff/wastes.py, cutoff/markets.py, cutoff/allocation.py and utils.py -/

/-- cutoff/wastes.py:191-202: one exchange. -/
def flipL (ds : Dataset) (e : Exchange) : Except Err (Log (String × String × Cls) × Exchange) :=
  if e.type = .byproduct then
    match e.cls with
    | none => .error .keyError
    | some .allocatable => .ok ([], e)
    | some c => .ok ([(.ocelot, ds.name, e.name, c)], { e with
        cls := none
        type := .fromTechnosphere
        amount := -1 * e.amount
        formula := e.formula.map fun f => "-1 * (" ++ f ++ ")" })
  else .ok ([], e)

/-- /repo/ocelot/transformations/cutoff/wastes.py:180-203 `flip_non_allocatable_byproducts`. -/
def flipNonAllocatableL (data : List Dataset) : Except Err (Log (String × String × Cls) × List Dataset) :=
  mapL (fun ds => exchangesL (flipL ds) ds) data

/-- What kind of name was changed: of an exchange, or the label of the dataset, cutoff/wastes.py:112, 118. -/
inductive Renamed where
  | exchange (type : ExcType)
  | label
  deriving DecidableEq, Repr

/-- `text.endswith(RC_STRING)`. -/
def hasRc (s : String) : Bool := rcString.toList.isSuffixOf s.toList

/-- cutoff/wastes.py:108-113: one exchange. The table shows the new name. -/
def renameL (ds : Dataset) (e : Exchange) : Except Err (Log (String × String × Renamed × String) × Exchange) :=
  if hasRc e.name then .ok ([(.ocelot, ds.name, stripRc e.name, .exchange e.type, ds.location)], { e with name := stripRc e.name }) else .ok ([], e)

/-- cutoff/wastes.py:114-119: the label. -/
def renameLabelL (ds : Dataset) : Log (String × String × Renamed × String) × Option String :=
  if hasRc (ds.refProduct.getD "") then ([(.ocelot, ds.name, stripRc (ds.refProduct.getD ""), .label, ds.location)], some (stripRc (ds.refProduct.getD "")))
  else ([], ds.refProduct)

/-- /repo/ocelot/transformations/cutoff/wastes.py:102-120 `rename_recycled_content_products_after_linking`. -/
def renameAfterLinkingL (data : List Dataset) : Except Err (Log (String × String × Renamed × String) × List Dataset) :=
  mapL (fun ds => do
    let r ← exchangesL (renameL ds) ds
    return (r.1 ++ (renameLabelL ds).1, { r.2 with refProduct := (renameLabelL ds).2 })) data

/-- /repo/ocelot/transformations/cutoff/wastes.py:153-171 `create_recycled_content_datasets`. -/
def createRecycledL (data : List Dataset) : Except Err (Log String × List Dataset) := do
  let c ← recycledContentCandidates data
  let new := dictOf (fun d : Dataset => d.name) (fun d => d) c
  return (new.map fun p => (.ocelot, p.1), data ++ new.map (·.2))

/-- /repo/ocelot/transformations/cutoff/markets.py:35-68, the body of the loop of `adjust_market_signs_for_allocatable_products`. -/
def adjustSignsL (M : MathEnv) (ds : Dataset) : Except Err (Log (String × String) × Dataset) :=
  if ds.type = .market then do
    let rp ← getSingleReferenceProduct ds
    let cls ← getKey rp.cls
    if cls ≠ .waste ∧ ds.exchanges.all (fun e => decide (e.amount ≤ 0)) then
      let ex ← mapE (fun e => scaleExchange M e (-1)) ds.exchanges
      return ([(.ocelot, ds.name, ds.location)], { ds with exchanges := ex })
    else if cls ≠ .waste ∧ rp.amount < 0 then
      let ex ← mapE (fun e => if e.name = rp.name then scaleExchange M e (-1) else .ok e) ds.exchanges
      return ([(.ocelot, ds.name, ds.location)], { ds with exchanges := ex })
    else return ([], ds)
  else return ([], ds)

/-- /repo/ocelot/transformations/cutoff/markets.py:35-68. -/
def adjustMarketSignsL (M : MathEnv) (data : List Dataset) : Except Err (Log (String × String) × List Dataset) := mapL (adjustSignsL M) data

/-- /repo/ocelot/transformations/cutoff/allocation.py:163-180 `label_allocation_method`: all datasets are labelled, then the table is filled. -/
def labelMethodsL (data : List Dataset) : Except Err (Log (String × ℕ) × List Dataset) := do
  let out ← labelAllocationMethod data
  return (allocationLabels.map fun label => (.ocelot, label, (out.filter fun ds => ds.allocationMethod == some label).length), out)

/-- /repo/ocelot/transformations/utils.py:228-243 `normalize_reference_production_amount`. -/
def normalizeOneL (M : MathEnv) (ds : Dataset) : Except Err (Log (String × String × ℚ) × Dataset) := do
  let product ← getSingleReferenceProduct ds
  if product.amount = 0 then throw .zeroProduction
  let factor := 1 / |product.amount|
  if |factor - 1| > normEpsilon then
    let ex ← mapE (fun e => scaleExchange M e factor) ds.exchanges
    return ([(.ocelot, ds.name, product.name, factor)], { ds with exchanges := ex })
  else return ([], ds)

/-- /repo/ocelot/wrapper.py:23-28 and /repo/ocelot/configuration.py:63: normalisation of all datasets. -/
def normalizeAllL (M : MathEnv) (data : List Dataset) : Except Err (Log (String × String × ℚ) × List Dataset) := mapL (normalizeOneL M) data

/-! ## locations -/

/-- /repo/ocelot/transformations/locations/markets.py:330-355 `delete_whitelisted_zero_pv_market_datsets`. -/
def deleteWhitelistedL (data : List Dataset) : Except Err (Log (String × String) × List Dataset) := do
  let l ← mapE withRefProduct (data.filter isWhitelisted)
  return (l.map fun p => (.ocelot, p.2.name, p.1), data.filter fun ds => !isWhitelisted ds)

/-- markets.py:389-395: one dataset. -/
def fakePvL (ds : Dataset) : Except Err (Log (String × String × ℚ) × Dataset) :=
  if ds.type = .transforming ∧ confidentialNames.contains ds.name then do
    let rp ← getSingleReferenceProduct ds
    let _ ← getKey rp.pv
    return ([(.ocelot, ds.name, rp.name, 1)], { ds with exchanges := ds.exchanges.map (mapRefVolume unitVolume) })
  else .ok ([], ds)

/-- /repo/ocelot/transformations/locations/markets.py:363-396 `assign_fake_pv_to_confidential_datasets`. -/
def assignFakePvL (data : List Dataset) : Except Err (Log (String × String × ℚ) × List Dataset) := mapL fakePvL data

/-- /repo/ocelot/transformations/locations/markets.py:404-422 `delete_global_with_zero_pv_when_regional_present`. -/
def deleteGlobalL (kind : DsType) (data : List Dataset) : Except Err (Log (String × String × String) × List Dataset) := do
  let l ← mapE withRefProduct (data.filter fun ds => ds.type == kind)
  let purge := (groupBy (·.1) l).filterMap fun g => (purgedOf (g.2.map (·.2))).map fun row => (g.1, row)
  return (purge.map fun p => (.ocelot, p.2.name, p.1, p.2.location), data.filter fun ds => !(purge.map (·.2)).contains ds)

/-- rest_of_world.py:34-74: one group; the row is logged once the `GLO` dataset is relabelled. `sep.join` of the sorted products is kept as a list. -/
def relabelGroupL (st : Log (String × List String) × List ((String × List String) × Dataset)) (k : String × List String) :
    Except Err (Log (String × List String) × List ((String × List String) × Dataset)) :=
  let group := (st.2.filter fun p => decide (p.1 = k)).map (·.2)
  if (group.head?.map (·.type)) = some .marketGroup then .ok st
  else if 1 < group.length ∧ group.any (fun d => d.location == "GLO") then do
    checkSingleGlobalDataset group
    let st' ← mapE (relabelMember k (regionalVolume group)) st.2
    return (st.1 ++ [(.ocelot, k.1, sortNames k.2)], st')
  else .ok st

/-- /repo/ocelot/transformations/locations/rest_of_world.py:16-75 `relabel_global_to_row`. -/
def relabelL (data : List Dataset) : Except Err (Log (String × List String) × List Dataset) := do
  let st ← mapE withRowKey data
  let st' ← foldE relabelGroupL ([], st) ((groupBy (·.1) st).map (·.1))
  return (st'.1, st'.2.map (·.2))

/-- linking.py:20-44: one exchange; the table lists what could not be resolved. -/
def actualizeLinkL (data : List Dataset) (e : Exchange) : Except Err (Log (String × String × ℚ) × Exchange) :=
  if e.activityLink.getD "" = "" then .ok ([], e)
  else do
    let group := data.filter fun ds => decide (some ds.id = e.activityLink)
    if group = [] then throw .keyError
    let references ← filterE (makesProduct e.name) group
    match references with
    | [found] =>
      let c ← getKey found.code
      return ([], { e with code := some c })
    | _ => return ([(.ocelot, e.activityLink.getD "", e.name, e.amount)], e)

/-- /repo/ocelot/transformations/locations/linking.py:17-45 `actualize_activity_links`. -/
def actualizeL (data : List Dataset) : Except Err (Log (String × String × ℚ) × List Dataset) :=
  mapL (exchangesL (actualizeLinkL data)) data

/-- linking.py:68-82: one exchange; `rc` are the recycled content activities. -/
def linkRecycledInputL (rc : List Dataset) (ds : Dataset) (e : Exchange) : Except Err (Log (String × String × String × String) × Exchange) :=
  if isUnlinked e then
    match rc.filter fun ds => ds.refProduct == some e.name with
    | [sup] => do
      let c ← getKey sup.code
      return ([(.ocelot, ds.name, e.name, ds.location, sup.name)], { e with code := some c })
    | _ => .ok ([], e)
  else .ok ([], e)

/-- /repo/ocelot/transformations/locations/linking.py:53-82 `link_consumers_to_recycled_content_activities`. -/
def linkRecycledContentL (data : List Dataset) : Except Err (Log (String × String × String × String) × List Dataset) := do
  let rc ← filterE makesRecycledContent data
  mapL (fun ds => exchangesL (linkRecycledInputL rc ds) ds) data

/-- /repo/ocelot/transformations/locations/linking.py:237-246 `log_and_delete_unlinked_exchanges`. -/
def logAndDeleteL (data : List Dataset) : Except Err (Log (String × String × ℚ) × List Dataset) :=
  mapL (fun ds => .ok ((ds.exchanges.filter isUnlinked).map fun e => (.ocelot, ds.name, e.name, e.amount),
    { ds with exchanges := ds.exchanges.filter fun _ => ds.code.getD "" != "" })) data

/-! ## The consequential system model logs through the root logger -/

/-- /repo/ocelot/transformations/consequential/constrained_markets.py:74-104 `delete_activity_links_to_constrained_markets`. -/
def deleteLinksL (data : List Dataset) : Except Err (Log (String × String × String × ℚ) × List Dataset) := do
  let _ ← constrainedActivities data
  mapL (fun ds => exchangesL (fun e =>
    if e.conditional ≠ some true ∧ e.activityLink.getD "" ≠ "" then .ok ([(.root, ds.name, ds.location, e.name, e.amount)], { e with activityLink := none })
    else .ok ([], e)) ds) data

/-- constrained_markets.py:53-59 and 62-63: the names of the target, its location and of the product that was replaced. -/
def swapRow (name : String) (target : Dataset) : Except Err (String × String × String × String) := do
  let rp ← getSingleReferenceProduct target
  return (name, target.name, target.location, rp.name)

/-- constrained_markets.py:38-65: one constrained exchange. The target is found in `id_mapping`, the last dataset with the id. -/
def constrainedStepL (st : Log (String × String × String × String) × List Dataset) (p : ℕ × ℕ × Exchange) :
    Except Err (Log (String × String × String × String) × List Dataset) := do
  let link ← getKey p.2.2.activityLink
  let mid := modifyExchange p.1 p.2.1 toInput st.2
  let next ← modifyLast link (swapRoles p.2.2.name) mid
  let target ← getKey (mid.reverse.find? fun d => d.id == link)
  let row ← swapRow p.2.2.name target
  return (st.1 ++ [(.root, row)], next)

/-- /repo/ocelot/transformations/consequential/constrained_markets.py:15-66 `handle_constrained_markets`. -/
def handleConstrainedL (data : List Dataset) : Except Err (Log (String × String × String × String) × List Dataset) :=
  foldE constrainedStepL ([], data) (constrainedExchanges data)

/-- technology_levels.py:12-21: the row of one product, if any. -/
def conflictRow (g : String × List Dataset) : Option (String × ℕ) :=
  if g.2.any (fun ds => ds.technologyLevel == some "undefined") && g.2.any (fun ds => ds.technologyLevel == some "current") then some (g.1, g.2.length) else none

/-- /repo/ocelot/transformations/consequential/technology_levels.py:7-22 `log_conflicting_technology_levels`. The tests read `ds['technology level']` of the datasets of a
product until one fits, so that a missing level may or may not raise; here all levels are read. -/
def logConflictsL (data : List Dataset) : Except Err (Log (String × ℕ) × List Dataset) := do
  let l ← mapE withRefProduct (data.filter fun ds => ds.type == .transforming)
  let _ ← mapE (fun p : String × Dataset => getKey p.2.technologyLevel) l
  return (((groupBy (·.1) l).filterMap fun g => conflictRow (g.1, g.2.map (·.2))).map fun r => (.root, r), data)

/-- technology_levels.py:30-37: one dataset. -/
def switchLevelL (ds : Dataset) : Except Err (Log (String × String × String) × Dataset) :=
  if ds.type = .transforming then do
    let t ← getKey ds.technologyLevel
    if t = "undefined" then
      let r ← getKey ds.refProduct
      return ([(.root, ds.name, r, ds.location)], { ds with technologyLevel := some "current" })
    else return ([], ds)
  else .ok ([], ds)

/-- /repo/ocelot/transformations/consequential/technology_levels.py:29-38 `switch_undefined_to_current`. -/
def switchUndefinedL (data : List Dataset) : Except Err (Log (String × String × String) × List Dataset) := mapL switchLevelL data

end Ocelot
