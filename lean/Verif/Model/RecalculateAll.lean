import Verif.Model.Combined

/-!
# Recalculating all datasets, with what is left behind by a failure

/repo/ocelot/transformations/parameterization/recalculation.py:52-107 once more. `recalculate` changes amounts and uncertainties in place, so that a failure leaves the objects that were
visited before changed. `recalculate_all_parameterized_datasets` catches some of the failures. Functions return the state afterwards together with the exception, if any.
-/

namespace Ocelot

/-- A loop that changes elements in place, and ends with the first exception. -/
def mapS {α : Type} (g : α → α × Except Err Unit) : List α → List α × Except Err Unit
  | [] => ([], .ok ())
  | a :: l =>
    match g a with
    | (a', .error e) => (a' :: l, .error e)
    | (a', .ok ()) => (a' :: (mapS g l).1, (mapS g l).2)

/-- An assignment to an object: nothing happens to it if computing the value raises. -/
def objS (f : NumObj → Except Err NumObj) (o : NumObj) : NumObj × Except Err Unit :=
  match f o with
  | .ok o' => (o', .ok ())
  | .error e => (o, .error e)

/-- utils.py:107-112, 120-126: the production volume. -/
def pvS (f : NumObj → Except Err NumObj) : Option PV → Option PV × Except Err Unit
  | none => (none, .ok ())
  | some p => (some { p with toNumObj := (objS f p.toNumObj).1 }, (objS f p.toNumObj).2)

/-- utils.py:105-134: the objects of one exchange, in the order of the iterators. -/
def Exchange.numS (f : NumObj → Except Err NumObj) (e : Exchange) : Exchange × Except Err Unit :=
  match objS f e.toNumObj with
  | (o, .error x) => ({ e with toNumObj := o }, .error x)
  | (o, .ok ()) =>
    match pvS f e.pv with
    | (pv, .error x) => ({ e with toNumObj := o, pv := pv }, .error x)
    | (pv, .ok ()) =>
      let r := mapS (fun p : Prop' => ({ p with toNumObj := (objS f p.toNumObj).1 }, (objS f p.toNumObj).2)) e.properties
      ({ e with toNumObj := o, pv := pv, properties := r.1 }, r.2)

/-- utils.py:105-134: all objects of a dataset. -/
def Dataset.numS (f : NumObj → Except Err NumObj) (ds : Dataset) : Dataset × Except Err Unit :=
  match mapS (Exchange.numS f) ds.exchanges with
  | (ex, .error x) => ({ ds with exchanges := ex }, .error x)
  | (ex, .ok ()) =>
    let r := mapS (fun p : Param => ({ p with toNumObj := (objS f p.toNumObj).1 }, (objS f p.toNumObj).2)) ds.parameters
    ({ ds with exchanges := ex, parameters := r.1 }, r.2)

/-- /repo/ocelot/transformations/parameterization/recalculation.py:52-83 `recalculate` in place. -/
def recalculateS (M : MathEnv) (F : FormulaEnv) (ord : Dataset → Except Err (List String)) (ds : Dataset) : Dataset × Except Err Unit :=
  match ord ds with
  | .error e => (ds, .error e)
  | .ok order =>
    match evaluateParams F (extractNamedParameters ds) order F.base with
    | .error e => (ds, .error e)
    | .ok σ =>
      match ds.numS (recalcObj F σ) with
      | (mid, .error e) => (mid, .error e)
      | (mid, .ok ()) => mid.numS (repair M)

/-- recalculation.py:93-94: `ParameterError`, `ZeroDivisionError`, `TypeError`, `DuplicateName`. -/
def caught : Err → Bool
  | .parameterError => true
  | .zeroDivisionError => true
  | .typeError => true
  | _ => false

/-- A line of the table in the report: name, reference product, location (recalculation.py:95-100). -/
abbrev FailureRow := String × String × String

/-- /repo/ocelot/transformations/parameterization/recalculation.py:86-107 `recalculate_all_parameterized_datasets`: the datasets and the table afterwards. -/
def recalculateAll (M : MathEnv) (F : FormulaEnv) (ord : Dataset → Except Err (List String)) : List Dataset → List Dataset × List FailureRow × Except Err Unit
  | [] => ([], [], .ok ())
  | ds :: rest =>
    match recalculateS M F ord ds with
    | (ds', .ok ()) =>
      let r := recalculateAll M F ord rest
      (ds' :: r.1, r.2.1, r.2.2)
    | (ds', .error e) =>
      if caught e then
        match ds'.refProduct with
        | none => (ds' :: rest, [], .error .keyError)
        | some rp =>
          let r := recalculateAll M F ord rest
          (ds' :: r.1, (ds'.name, rp, ds'.location) :: r.2.1, r.2.2)
      else (ds' :: rest, [], .error e)

end Ocelot
