import Verif.Model.ReportRows
import Verif.Model.RecalculateAll
import Verif.Model.Cli

/-!
# The detailed log

/repo/ocelot/logger.py:17-41, 56-64: what is sent to the logger `ocelot-detailed` ends up in `detailed.log.json`, one line for each message. These are the transformation functions once more,
with the lines that they write. The texts of the messages are kept as their kind with the values that are filled in; numbers are not rounded to four digits here, and the time is omitted.
-/

namespace Ocelot

/-- The messages; each is named after its text. -/
inductive Message where
  /-- activity_links.py:116 `Ignoring self-consuming activity link: amount (PV: volume` -/
  | selfLink (amount volume : ℚ)
  /-- activity_links.py:145 `Subtracting activity link: amount (out of volume) from name | location` -/
  | subtractLink (amount outOf : ℚ) (name location : String)
  /-- activity_links.py:175 `Subtracting hard-linked production volumes: amount from volume` -/
  | subtractVolume (amount volume : ℚ)
  /-- allocation.py:169 the label itself -/
  | method (label : String)
  /-- rest_of_world.py:59 `Created RoW dataset 'name' with PV volume unit (Originally: original, minus region-specific: regional)` -/
  | restOfWorld (name : String) (volume : ℚ) (unit : String) (original regional : ℚ)
  /-- linking.py:37 `Linked input of 'product' to activity 'name' (location).` -/
  | linked (product name location : String)
  /-- linking.py:193 `Link complete input of product 'amount' from 'name' (location)` -/
  | complete (product : String) (amount : ℚ) (name location : String)
  /-- linking.py:216 `Link consumption input of product from 'name' (location)` -/
  | consumption (product name location : String)
  /-- markets.py:186 `Assigning default production volume (single supplier, zero PV): name | product | location; supplier name | location` -/
  | defaultVolume (name product location supplier supplierLocation : String)
  /-- markets.py:201 `Production volume of total product divided into number suppliers` -/
  | divided (total : ℚ) (product : String) (number : ℕ)
  /-- markets.py:234 `Create input exchange of amount unit for 'product' from 'supplier' (location)` -/
  | created (amount : ℚ) (unit product supplier location : String)
  /-- recalculation.py:103 `Parameter recalculation error: ...` -/
  | recalculation (error : Err)
  deriving DecidableEq, Repr

/-- A line of the log, /repo/ocelot/logger.py:31-41 without the time. -/
structure Line where
  message : Message
  function : String
  id : String
  filename : String
  code : Option String
  deriving DecidableEq, Repr

/-- /repo/ocelot/logger.py:18-41 `DatasetJsonFormatter.format`. -/
def formatLine (function : String) (ds : Dataset) (m : Message) : Line :=
  { message := m, function := function, id := ds.id, filename := basename ds.filepath, code := ds.code }

/-- A loop that logs. -/
def mapD {α β : Type} (f : α → Except Err (List Line × β)) : List α → Except Err (List Line × List β)
  | [] => .ok ([], [])
  | a :: l => do
    let b ← f a
    let r ← mapD f l
    return (b.1 ++ r.1, b.2 :: r.2)

/-! ## activity_links.py -/

/-- activity_links.py:132-155: the line for a link of `ds` to `target`. -/
def linkLine (ds : Dataset) (e : Exchange) (target : Dataset) : Except Err Line := do
  let found ← productionNamed target e.name
  match found with
  | [x] => do
    let scale ← getBiggestPvRatio ds
    let p ← getKey x.pv
    return formatLine "add_hard_linked_production_volumes" target (.subtractLink (e.amount * scale) p.amount ds.name ds.location)
  | _ => throw .assertionError

/-- activity_links.py:111-161: one exchange `e` of the dataset `ds`; the line is written before the volume is changed, and does not read what is changed. -/
def hardLinkStepD (ds : Dataset) (st : List Line × List Dataset) (e : Exchange) : Except Err (List Line × List Dataset) :=
  match e.activityLink with
  | none => .ok st
  | some l =>
    if l = "" then .ok st
    else if l = ds.id then
      .ok (st.1 ++ [formatLine "add_hard_linked_production_volumes" ds (.selfLink e.amount ((productionVolume ds).getD 0))], st.2)
    else do
      let next ← modifyLast l (addToTarget e.name e.amount (getBiggestPvRatio ds)) st.2
      let target ← getKey (st.2.reverse.find? fun d => d.id == l)
      let line ← linkLine ds e target
      return (st.1 ++ [line], next)

/-- /repo/ocelot/transformations/activity_links.py:46-162 `add_hard_linked_production_volumes`. -/
def addHardLinkedD (data : List Dataset) : Except Err (List Line × List Dataset) :=
  foldE (fun st ds => foldE (hardLinkStepD ds) st ds.exchanges) ([], data) data

/-- activity_links.py:171-189, one exchange. -/
def updateProductionD (ds : Dataset) (e : Exchange) : Except Err (List Line × Exchange) := do
  let b ← isAllocatable e
  if b then
    let p ← getKey e.pv
    return ((p.subtracted.map fun s => formatLine "update_transforming_activity_production_volumes" ds (.subtractVolume s p.amount)).toList, { e with pv := some (reduceVolume p) })
  else return ([], e)

/-- /repo/ocelot/transformations/activity_links.py:165-190 `update_transforming_activity_production_volumes`. -/
def updateTransformingD (data : List Dataset) : Except Err (List Line × List Dataset) :=
  mapD (fun ds : Dataset =>
    if ds.type = .transforming then do
      let r ← mapD (updateProductionD ds) ds.exchanges
      return (r.1, { ds with exchanges := r.2 })
    else .ok ([], ds)) data

/-! ## cutoff/allocation.py, rest_of_world.py -/

/-- /repo/ocelot/transformations/cutoff/allocation.py:163-171 `label_allocation_method`, the first loop. -/
def labelMethodsD (data : List Dataset) : Except Err (List Line × List Dataset) :=
  mapD (fun ds => do
    let m ← chooseAllocationMethod ds
    return ([formatLine "label_allocation_method" ds (.method m)], { ds with allocationMethod := some m })) data

/-- rest_of_world.py:38-71: the line for the relabelled dataset. -/
def rowLine (regional : ℚ) (glo : Dataset) : Except Err Line := do
  let rp ← getSingleReferenceProduct glo
  let p ← getKey rp.pv
  return formatLine "relabel_global_to_row" glo (.restOfWorld glo.name (max (p.amount - regional) 0) rp.unit p.amount regional)

/-- rest_of_world.py:34-74: one group. -/
def relabelGroupD (st : List Line × List ((String × List String) × Dataset)) (k : String × List String) :
    Except Err (List Line × List ((String × List String) × Dataset)) :=
  let group := (st.2.filter fun p => decide (p.1 = k)).map (·.2)
  if (group.head?.map (·.type)) = some .marketGroup then .ok st
  else if 1 < group.length ∧ group.any (fun d => d.location == "GLO") then do
    checkSingleGlobalDataset group
    let next ← mapE (relabelMember k (regionalVolume group)) st.2
    let lines ← mapE (rowLine (regionalVolume group)) (group.filter fun d => d.location == "GLO")
    return (st.1 ++ lines, next)
  else .ok st

/-- /repo/ocelot/transformations/locations/rest_of_world.py:16-75 `relabel_global_to_row`. -/
def relabelD (data : List Dataset) : Except Err (List Line × List Dataset) := do
  let st ← mapE withRowKey data
  let st' ← foldE relabelGroupD ([], st) ((groupBy (·.1) st).map (·.1))
  return (st'.1, st'.2.map (·.2))

/-! ## locations/linking.py, markets.py -/

/-- linking.py:20-44: one exchange of `ds`. -/
def actualizeLinkD (data : List Dataset) (ds : Dataset) (e : Exchange) : Except Err (List Line × Exchange) :=
  if e.activityLink.getD "" = "" then .ok ([], e)
  else do
    let group := data.filter fun ds => decide (some ds.id = e.activityLink)
    if group = [] then throw .keyError
    let references ← filterE (makesProduct e.name) group
    match references with
    | [found] =>
      let c ← getKey found.code
      return ([formatLine "actualize_activity_links" ds (.linked e.name found.name found.location)], { e with code := some c })
    | _ => return ([], e)

/-- /repo/ocelot/transformations/locations/linking.py:17-45 `actualize_activity_links`. -/
def actualizeD (data : List Dataset) : Except Err (List Line × List Dataset) :=
  mapD (fun ds => do
    let r ← mapD (actualizeLinkD data ds) ds.exchanges
    return (r.1, { ds with exchanges := r.2 })) data

/-- markets.py:234-244: the lines for the inputs that replace `exc`; what has no share is skipped (lines 214-215). -/
def createdLines (ds : Dataset) (exc : Exchange) (total : ℚ) (entries : List Exchange) : List Line :=
  entries.flatMap fun s =>
    let share := (s.pv.map (·.amount)).getD 0 / total
    if share = 0 then []
    else [formatLine "allocate_suppliers" ds (.created (share * exc.amount) s.unit exc.name s.name (s.location.getD ""))]

/-- /repo/ocelot/transformations/locations/markets.py:169-250 `allocate_suppliers` with the default arguments. -/
def allocateSuppliersD (ds : Dataset) : Except Err (List Line × Dataset) := do
  let exc ← getSingleReferenceProduct ds
  let sup ← getKey ds.suppliers
  let vols ← mapE entryVolume sup
  if vols.sum = 0 then
    if sup.length ≠ 1 then return ([], ds)
    let rp ← getKey ds.refProduct
    let lines ← mapE (fun s : Exchange => do
      let l ← getKey s.location
      return formatLine "allocate_suppliers" ds (.defaultVolume ds.name rp ds.location s.name l)) sup
    let sup' := sup.map defaultVolume
    let new ← flatMapE (marketInput exc.amount 4321) sup'
    return (lines ++ createdLines ds exc 4321 sup', { ds with suppliers := some sup', exchanges := ds.exchanges ++ new })
  let new ← flatMapE (marketInput exc.amount vols.sum) sup
  return (formatLine "allocate_suppliers" ds (.divided vols.sum exc.name sup.length) :: createdLines ds exc vols.sum sup,
    { ds with exchanges := ds.exchanges ++ new })

/-- markets.py:158-166 `allocate_all_market_suppliers`. -/
def allocateAllD (kind : DsType) (data : List Dataset) : Except Err (List Line × List Dataset) :=
  mapD (fun ds => if ds.type = kind then allocateSuppliersD ds else .ok ([], ds)) data

/-- markets.py:169-250 `allocate_suppliers` with `is_market=False`, more than one supplier. -/
def splitInputD (M : MathEnv) (ds : Dataset) (e : Exchange) (entries : List Exchange) (ex : List (Option ℕ × Exchange)) :
    Except Err (List Line × List (Option ℕ × Exchange)) := do
  let vols ← mapE entryVolume entries
  if vols.sum = 0 then return ([], ex)
  let new ← flatMapE (inputShare M e vols.sum) entries
  return (formatLine "allocate_suppliers" ds (.divided vols.sum e.name entries.length) :: createdLines ds e vols.sum entries,
    (ex ++ new.map fun n => (none, n)).filter fun p => decide (p.2 ≠ e))

/-- linking.py:189-228: use the chosen datasets for the exchange `e` at position `i`. The lines of linking.py:211-226 are written before the shares are computed. -/
def useMarketsD (M : MathEnv) (ds : Dataset) (st : LinkState) (e : Exchange) (i : ℕ) (chosen : List Dataset) : Except Err (List Line × LinkState) :=
  match chosen with
  | [] => .ok ([], { st with suppliers := none })
  | [obj] => do
    let c ← getKey obj.code
    return ([formatLine "link_consumers_to_markets" ds (.complete e.name e.amount obj.name obj.location)], { st with exchanges := st.exchanges.map (setCodeAt i c) })
  | _ :: _ :: _ => do
    let entries := chosen.map (consumerEntry e)
    let r ← splitInputD M ds e entries st.exchanges
    return (entries.map (fun s => formatLine "link_consumers_to_markets" ds (.consumption e.name s.name (s.location.getD ""))) ++ r.1,
      { st with exchanges := r.2, suppliers := none })

/-- linking.py:145-228: one exchange. -/
def linkInputD (M : MathEnv) (T : Topology) (data : List Dataset) (ds : Dataset) (crow : Option (Finset ℕ)) (st : List Line × LinkState)
    (p : Exchange × ℕ) : Except Err (List Line × LinkState) := do
  let candidates ← candidatesFor data st.2.candidates p.1.name
  let chosen ← chooseMarkets T ds.location crow candidates
  let r ← useMarketsD M ds { st.2 with candidates := some candidates } p.1 p.2 chosen
  return (st.1 ++ r.1, r.2)

/-- linking.py:121-228: one dataset. -/
def linkConsumerD (M : MathEnv) (T : Topology) (data : List Dataset) (candidates : Option (List Dataset)) (ds : Dataset) :
    Except Err (Option (List Dataset) × List Line × Dataset) :=
  if ds.type = .marketGroup then .ok (candidates, [], ds)
  else do
    let crow ← consumerRow T data ds
    let st ← foldE (linkInputD M T data ds crow)
      ([], { candidates := candidates, exchanges := ds.exchanges.zipIdx.map fun p => (some p.2, p.1), suppliers := ds.suppliers })
      (ds.exchanges.zipIdx.filter fun p => isUnlinked p.1)
    return (st.2.candidates, st.1, { ds with exchanges := st.2.exchanges.map (·.2), suppliers := st.2.suppliers })

/-- /repo/ocelot/transformations/locations/linking.py:91-229 `link_consumers_to_markets`. -/
def linkConsumersD (M : MathEnv) (T : Topology) (data : List Dataset) : Except Err (List Line × List Dataset) := do
  let _ ← mapE withRefProduct (data.filter fun d => d.type == .market || d.type == .marketGroup)
  let r ← scanE (linkConsumerD M T data) none data
  return (r.flatMap (·.1), r.map (·.2))

/-! ## parameterization/recalculation.py -/

/-- /repo/ocelot/transformations/parameterization/recalculation.py:86-107 `recalculate_all_parameterized_datasets`: the lines. -/
def recalculateLines (M : MathEnv) (F : FormulaEnv) (ord : Dataset → Except Err (List String)) : List Dataset → List Line
  | [] => []
  | ds :: rest =>
    match recalculateS M F ord ds with
    | (_, .ok ()) => recalculateLines M F ord rest
    | (ds', .error e) =>
      if caught e ∧ ds'.refProduct.isSome then formatLine "recalculate" ds' (.recalculation e) :: recalculateLines M F ord rest
      else []

end Ocelot
