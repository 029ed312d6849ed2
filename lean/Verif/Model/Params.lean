import Verif.Model.Utils

/-!
# Parameters of a dataset

Models /repo/ocelot/transformations/utils.py:105-134 (the two iterators) and
/repo/ocelot/transformations/parameterization/{validation,production_volumes,uncertainty,recalculation,
known_ecoinvent_issues}.py and the parts of python_compatibility.py that do not rewrite formula text.

A `for obj in iterate_all_...(ds)` loop whose body changes `obj` in place is modelled by `mapNumE`
(the body may raise).  The generators test `'variable' in obj` etc. lazily, just before the body runs on
the same object, so testing inside the mapped function is the same.
-/

namespace Ocelot

/-- All numeric objects of an exchange in the order of the iterators (utils.py:107-115):
the exchange itself, its production volume, its properties. -/
def Exchange.numObjs (e : Exchange) : List NumObj :=
  e.toNumObj :: (e.pv.toList.map PV.toNumObj ++ e.properties.map Prop'.toNumObj)

/-- All numeric objects of a dataset in the order of `iterate_all_parameters` and
`iterate_all_uncertainties`, utils.py:105-134. -/
def Dataset.numObjs (ds : Dataset) : List NumObj :=
  ds.exchanges.flatMap Exchange.numObjs ++ ds.parameters.map Param.toNumObj

/-- In-place change of a production volume, if there is one. -/
def mapPvE (f : NumObj → Except Err NumObj) : Option PV → Except Err (Option PV)
  | none => .ok none
  | some p => do
    let q ← f p.toNumObj
    return some { p with toNumObj := q }

/-- In-place change of every numeric object of an exchange. -/
def Exchange.mapNumE (f : NumObj → Except Err NumObj) (e : Exchange) : Except Err Exchange := do
  let o ← f e.toNumObj
  let pv ← mapPvE f e.pv
  let ps ← mapE (fun p : Prop' => do let q ← f p.toNumObj; return { p with toNumObj := q }) e.properties
  return { e with toNumObj := o, pv := pv, properties := ps }

/-- In-place change of every numeric object of a dataset. -/
def Dataset.mapNumE (f : NumObj → Except Err NumObj) (ds : Dataset) : Except Err Dataset := do
  let ex ← mapE (Exchange.mapNumE f) ds.exchanges
  let ps ← mapE (fun p : Param => do let q ← f p.toNumObj; return { p with toNumObj := q }) ds.parameters
  return { ds with exchanges := ex, parameters := ps }

/-- The test of `iterate_all_parameters`: `"variable" in obj or "formula" in obj`. -/
def NumObj.isParam (o : NumObj) : Bool := o.var.isSome || o.formula.isSome

/-- parameterization/validation.py:13-19: the loop over one dataset, `found` is the set of names seen.
`x.get('variable')` is false for the empty string as well. -/
def uniqueLoop : List NumObj → List String → Except Err Unit
  | [], _ => .ok ()
  | o :: l, found =>
    match o.var with
    | none => uniqueLoop l found
    | some v =>
      if v = "" then uniqueLoop l found
      else if v ∈ found then .error .parameterizationError
      else uniqueLoop l (v :: found)

/-- /repo/ocelot/transformations/parameterization/validation.py:6-19 `variable_names_are_unique`. -/
def variableNamesAreUnique (data : List Dataset) : Except Err (List Dataset) := do
  forE (fun ds : Dataset => uniqueLoop (ds.numObjs.filter NumObj.isParam) []) data
  return data

/-- /repo/ocelot/transformations/parameterization/production_volumes.py:25-39: the new dataset parameter for a
production volume with a variable. `uuid` stands for `uuid.uuid4()`. -/
def shiftedParameter (uuid : String) (e : Exchange) (pv : PV) (v : String) : Param :=
  { unit := e.unit, id := uuid, name := "Shifted PV parameter: " ++ v, var := some v, amount := pv.amount, formula := pv.formula }

/-- production_volumes.py:20-43, the loop body: the changed exchange and the appended parameters. -/
def pvParameter (uuid : String) (e : Exchange) : Exchange × List Param :=
  match e.pv with
  | none => (e, [])
  | some pv =>
    match pv.var with
    | some v => ({ e with pv := some { pv with var := none, formula := none } }, [shiftedParameter uuid e pv v])
    | none => ({ e with pv := some { pv with formula := none } }, [])

/-- /repo/ocelot/transformations/parameterization/production_volumes.py:10-43 `create_pv_parameters` on one
dataset. `uuid` gives the random identifier used for an exchange. -/
def createPvParameters (uuid : Exchange → String) (ds : Dataset) : Dataset :=
  { ds with exchanges := ds.exchanges.map (fun e => (pvParameter (uuid e) e).1), parameters := ds.parameters ++ ds.exchanges.flatMap (fun e => (pvParameter (uuid e) e).2) }

/-- /repo/ocelot/transformations/parameterization/uncertainty.py:7-16 `repair_all_uncertainty_distributions`
on one dataset. `repair` returns objects without uncertainty unchanged. -/
def repairAll (M : MathEnv) (ds : Dataset) : Except Err Dataset := ds.mapNumE (repair M)

/-- /repo/ocelot/transformations/parameterization/python_compatibility.py:156-166, body. -/
def lowercaseObj (lower : String → String) (o : NumObj) : NumObj :=
  { o with formula := o.formula.map lower, var := o.var.map lower }

/-- /repo/ocelot/transformations/parameterization/python_compatibility.py:156-166
`lowercase_all_parameters` on one dataset. -/
def lowercaseAllParameters (lower : String → String) (ds : Dataset) : Except Err Dataset :=
  ds.mapNumE fun o => .ok (lowercaseObj lower o)

/-- /repo/ocelot/transformations/parameterization/known_ecoinvent_issues.py:48-68
`fix_specific_ecoinvent_issues` on one dataset. -/
def fixSpecificIssues (ds : Dataset) : Dataset :=
  if ds.name = "petroleum refinery operation" then
    { ds with exchanges := ds.exchanges.filter fun e => decide (e.name ≠ "refinery gas") || decide (e.amount ≠ 0) }
  else ds

end Ocelot
