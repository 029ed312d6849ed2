import Verif.Model.ActivityLinks

/-!
# The consequential system model

Models /repo/ocelot/transformations/consequential. Its functions log through the root logger and not through the logger of
the model run, so that nothing they log reaches the report; logging is not modelled, except where building the message can raise.
-/

namespace Ocelot

/-! ## byproducts.py -/

/-- Names of the exchanges of a type, over all datasets: /repo/ocelot/transformations/consequential/byproducts.py:9-12. -/
def namesOfType (t : ExcType) (data : List Dataset) : List String :=
  data.flatMap fun ds => (ds.exchanges.filter fun e => e.type == t).map (·.name)

/-- /repo/ocelot/transformations/consequential/byproducts.py:5-17 `ensure_byproducts_have_alternative_production`. -/
def ensureAlternativeProduction (data : List Dataset) : Except Err (List Dataset) :=
  if (namesOfType .byproduct data).all fun n => (namesOfType .referenceProduct data).contains n then .ok data
  else .error .missingAlternativeProducer

/-! ## constrained_markets.py -/

/-- /repo/ocelot/transformations/consequential/constrained_markets.py:7-12 `flip_exchange`. -/
def flipSign (e : Exchange) : Exchange :=
  { e with amount := -1 * e.amount, formula := e.formula.map fun f => "-1 * (" ++ f ++ ")" }

/-- constrained_markets.py:44-45 and 49-50: the exchange becomes an input. -/
def toInput (e : Exchange) : Exchange := flipSign { e with type := .fromTechnosphere }

/-- constrained_markets.py:57-59: the exchange becomes the reference product. -/
def toProduct (e : Exchange) : Exchange := flipSign { e with type := .referenceProduct, cls := some .allocatable }

/-- constrained_markets.py:48-59: what happens to the target of a constrained exchange called `name`. -/
def swapRoles (name : String) (target : Dataset) : Except Err Dataset := do
  let _ ← getSingleReferenceProduct target
  let turned := target.exchanges.map fun e => if e.type = .referenceProduct then toInput e else e
  match turned.filter fun e => e.name == name with
  | [e] =>
    if e.type = .fromTechnosphere then
      return { target with exchanges := turned.map fun e => if e.name = name then toProduct e else e }
    else throw .assertionError
  | _ => throw .assertionError

/-- Change one exchange in place. -/
def modifyExchange (i j : ℕ) (f : Exchange → Exchange) (data : List Dataset) : List Dataset :=
  data.modify i fun ds => { ds with exchanges := ds.exchanges.modify j f }

/-- constrained_markets.py:38-59: the constrained exchange `c`, which is exchange number `j` of dataset number `i`. -/
def constrainedStep (st : List Dataset) (p : ℕ × ℕ × Exchange) : Except Err (List Dataset) := do
  let link ← getKey p.2.2.activityLink
  modifyLast link (swapRoles p.2.2.name) (modifyExchange p.1 p.2.1 toInput st)

/-- constrained_markets.py:38-39: the constrained exchanges with their positions. The loop changes neither the flag nor the
number of exchanges. -/
def constrainedExchanges (data : List Dataset) : List (ℕ × ℕ × Exchange) :=
  data.zipIdx.flatMap fun d => d.1.exchanges.zipIdx.filterMap fun e => if e.1.conditional = some true then some (d.2, e.2, e.1) else none

/-- /repo/ocelot/transformations/consequential/constrained_markets.py:15-66 `handle_constrained_markets`. -/
def handleConstrainedMarkets (data : List Dataset) : Except Err (List Dataset) :=
  foldE constrainedStep data (constrainedExchanges data)

/-- constrained_markets.py:85-90: `constrained_activities`; computed (which can raise), and never used. -/
def constrainedActivities (data : List Dataset) : Except Err (List String) :=
  mapE (fun e : Exchange => getKey e.activityLink) (data.flatMap fun ds => ds.exchanges.filter fun e => e.conditional == some true)

/-- constrained_markets.py:92-98: one exchange. -/
def dropLink (e : Exchange) : Exchange :=
  if e.conditional ≠ some true ∧ e.activityLink.getD "" ≠ "" then { e with activityLink := none } else e

/-- /repo/ocelot/transformations/consequential/constrained_markets.py:74-104 `delete_activity_links_to_constrained_markets`. -/
def deleteLinksToConstrained (data : List Dataset) : Except Err (List Dataset) := do
  let _ ← constrainedActivities data
  return data.map fun ds => { ds with exchanges := ds.exchanges.map dropLink }

/-! ## market_linking.py -/

/-- /repo/ocelot/transformations/consequential/market_linking.py:5-11 `TECHNOLOGY_LEVEL_HIERARCHY`. -/
def levelHierarchy : List String := ["new", "modern", "current", "old", "outdated"]

/-- market_linking.py:26-27 -/
def suppliersAt (suppliers : List Exchange) (level : String) : Except Err (List Exchange) :=
  filterE (fun o => do let t ← getKey o.technologyLevel; return t == level) suppliers

/-- market_linking.py:25-30 -/
def bestSuppliers (suppliers : List Exchange) : List String → Except Err (List Exchange)
  | [] => .error .assertionError
  | level :: rest => do
    let found ← suppliersAt suppliers level
    if found = [] then bestSuppliers suppliers rest else return found

/-- market_linking.py:17-31: one dataset. -/
def pruneSuppliers (ds : Dataset) : Except Err Dataset :=
  if (ds.type = .market ∨ ds.type = .marketGroup) ∧ ds.suppliers.getD [] ≠ [] then do
    let best ← bestSuppliers (ds.suppliers.getD []) levelHierarchy
    return { ds with suppliers := some best }
  else .ok ds

/-- /repo/ocelot/transformations/consequential/market_linking.py:14-32 `prune_suppliers_by_technology_level`. -/
def pruneByTechnologyLevel (data : List Dataset) : Except Err (List Dataset) := mapE pruneSuppliers data

/-! ## technology_levels.py -/

/-- /repo/ocelot/transformations/consequential/technology_levels.py:30-37: one dataset; the message needs a labelled product. -/
def switchLevel (ds : Dataset) : Except Err Dataset :=
  if ds.type = .transforming then do
    let t ← getKey ds.technologyLevel
    if t = "undefined" then
      let _ ← getKey ds.refProduct
      return { ds with technologyLevel := some "current" }
    else return ds
  else .ok ds

/-- /repo/ocelot/transformations/consequential/technology_levels.py:29-38 `switch_undefined_to_current`. -/
def switchUndefinedToCurrent (data : List Dataset) : Except Err (List Dataset) := mapE switchLevel data

end Ocelot
