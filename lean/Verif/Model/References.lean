import Verif.Model.FormulaText

/-!
# Implicit references

Models /repo/ocelot/transformations/parameterization/implicit_references.py.  The function changes objects of the dataset in
place while it goes through them; objects are addressed by their position.  Logging is not modelled.
-/

namespace Ocelot

/-- Where a numeric object of a dataset is: an exchange, its production volume, one of its properties, or a dataset parameter. -/
inductive Addr where
  | exc (i : ℕ)
  | pv (i : ℕ)
  | prop (i j : ℕ)
  | par (i : ℕ)
  deriving DecidableEq, Repr

/-- The object at an address. -/
def Dataset.obj? (ds : Dataset) : Addr → Option NumObj
  | .exc i => ds.exchanges[i]?.map Exchange.toNumObj
  | .pv i => ds.exchanges[i]?.bind fun e => e.pv.map PV.toNumObj
  | .prop i j => ds.exchanges[i]?.bind fun e => e.properties[j]?.map Prop'.toNumObj
  | .par i => ds.parameters[i]?.map Param.toNumObj

/-- In-place change of an exchange at a position. -/
def changeExchange (f : Exchange → Exchange) (i : ℕ) (ds : Dataset) : Dataset := { ds with exchanges := ds.exchanges.modify i f }

/-- In-place change of the object of an exchange. -/
def onExchange (f : NumObj → NumObj) (e : Exchange) : Exchange := { e with toNumObj := f e.toNumObj }

/-- In-place change of a production volume. -/
def onPv (f : NumObj → NumObj) (p : PV) : PV := { p with toNumObj := f p.toNumObj }

/-- In-place change of the production volume of an exchange. -/
def onExchangePv (f : NumObj → NumObj) (e : Exchange) : Exchange := { e with pv := e.pv.map (onPv f) }

/-- In-place change of a property. -/
def onProperty (f : NumObj → NumObj) (p : Prop') : Prop' := { p with toNumObj := f p.toNumObj }

/-- In-place change of a property of an exchange. -/
def onExchangeProperty (f : NumObj → NumObj) (j : ℕ) (e : Exchange) : Exchange := { e with properties := e.properties.modify j (onProperty f) }

/-- In-place change of a parameter. -/
def onParam (f : NumObj → NumObj) (p : Param) : Param := { p with toNumObj := f p.toNumObj }

/-- In-place change of the object at an address. -/
def Dataset.change (f : NumObj → NumObj) : Addr → Dataset → Dataset
  | .exc i, ds => changeExchange (onExchange f) i ds
  | .pv i, ds => changeExchange (onExchangePv f) i ds
  | .prop i j, ds => changeExchange (onExchangeProperty f j) i ds
  | .par i, ds => { ds with parameters := ds.parameters.modify i (onParam f) }

/-- The addresses of exchange number `i`, in the order of utils.py:107-115. -/
def Exchange.addrs (i : ℕ) (e : Exchange) : List Addr :=
  .exc i :: (e.pv.toList.map (fun _ => Addr.pv i) ++ (List.range e.properties.length).map (Addr.prop i))

/-- /repo/ocelot/transformations/utils.py:105-118 `iterate_all_parameters`, as addresses. Objects without formula are included:
the caller skips them (implicit_references.py:56-57). -/
def Dataset.addrs (ds : Dataset) : List Addr :=
  (ds.exchanges.zipIdx.flatMap fun p => p.1.addrs p.2) ++ (List.range ds.parameters.length).map Addr.par

/-- The character class `[0-9a-f]`. -/
def isHex (c : Char) : Bool := ('0' ≤ c ∧ c ≤ '9') || ('a' ≤ c ∧ c ≤ 'f')

/-- /repo/ocelot/io/ecospold2_meta.py:77 `UUID`, matched against the whole text. -/
def isUuid (s : Text) : Bool :=
  s.length == 36 && (s.zipIdx.all fun p => if p.2 = 8 ∨ p.2 = 13 ∨ p.2 = 18 ∨ p.2 = 23 then p.1 == '-' else isHex p.1)

/-- The end of an exchange reference, ecospold2_meta.py:81. -/
def excSuffix : Text := "')".toList

/-- The end of a production volume reference, ecospold2_meta.py:83. -/
def pvSuffix : Text := "', 'ProductionVolume')".toList

/-- A reference that ends with `suffix` matched at the beginning of `s`: the uuid. -/
def refMatch (suffix s : Text) : Option Text :=
  if (s.take 5 == "Ref('".toList || s.take 5 == "ref('".toList) && isUuid ((s.drop 5).take 36) && suffix.isPrefixOf (s.drop 41)
  then some ((s.drop 5).take 36) else none

/-- `re.finditer`: (matched text, uuid) of all non-overlapping matches from left to right; `skip` characters still belong to the last match. -/
def findRefs (suffix : Text) : ℕ → Text → List (Text × Text)
  | _, [] => []
  | skip + 1, _ :: s => findRefs suffix skip s
  | 0, c :: s =>
    match refMatch suffix (c :: s) with
    | some uuid => ((c :: s).take (41 + suffix.length), uuid) :: findRefs suffix (40 + suffix.length) s
    | none => findRefs suffix 0 s

/-- implicit_references.py:9-14 `get_exchange_reference`. -/
def exchangeReferences (s : Text) : List (Text × Text) := findRefs excSuffix 0 s

/-- implicit_references.py:17-22 `get_production_volume_reference`. -/
def pvReferences (s : Text) : List (Text × Text) := findRefs pvSuffix 0 s

/-- implicit_references.py:25-35 `find_exchange_or_parameter_by_id`. -/
def findById (ds : Dataset) (uuid : Text) : Except Err Addr :=
  match ds.exchanges.findIdx? (fun e => decide (e.id.toList = uuid)) with
  | some i => .ok (.exc i)
  | none =>
    match ds.parameters.findIdx? (fun p => decide (p.id.toList = uuid)) with
    | some i => .ok (.par i)
    | none => .error .valueError

/-- implicit_references.py:38-47 `find_production_volume_by_id`. -/
def findPvById (ds : Dataset) (uuid : Text) : Except Err Addr :=
  match ds.exchanges.findIdx? (fun e => decide (e.id.toList = uuid)) with
  | some i => if (ds.exchanges[i]?.bind (·.pv)).isSome then .ok (.pv i) else .error .valueError
  | none => .error .valueError

/-- `uuid.replace("-", "")` -/
def withoutDashes (s : Text) : Text := s.filter fun c => c != '-'

/-- implicit_references.py:65 -/
def excName (uuid : Text) : String := String.ofList ("ref_replacement_".toList ++ withoutDashes uuid)

/-- implicit_references.py:78 -/
def pvName (uuid : Text) : String := String.ofList ("ref_pv_replacement_".toList ++ withoutDashes uuid)

/-- The variable of an object, if it has one. -/
def Dataset.varAt (ds : Dataset) (a : Addr) : Option String := (ds.obj? a).bind (·.var)

/-- The formula of an object, if it has one. -/
def Dataset.formulaAt (ds : Dataset) (a : Addr) : Option String := (ds.obj? a).bind (·.formula)

/-- `reference['variable'] = variable` -/
def setVar (v : String) (o : NumObj) : NumObj := { o with var := some v }

/-- `obj['formula'] = obj['formula'].replace(string, variable)` -/
def replaceInFormula (string : Text) (v : String) (o : NumObj) : NumObj :=
  { o with formula := o.formula.map fun f => String.ofList (replaceAll string v.toList f.toList) }

/-- implicit_references.py:61-66 and 75-79: the variable of the referenced object `target`, which is created if it has none. -/
def giveVariable (name : String) (target : Addr) (ds : Dataset) : String × Dataset :=
  match ds.varAt target with
  | some v => (v, ds)
  | none => (name, ds.change (setVar name) target)

/-- implicit_references.py:59-71 and 73-84, body: one reference in the formula of the object at `a`. -/
def replaceReference (find : Dataset → Text → Except Err Addr) (name : Text → String) (a : Addr) (ds : Dataset) (r : Text × Text) :
    Except Err Dataset := do
  let target ← find ds r.2
  let p := giveVariable (name r.2) target ds
  return p.2.change (replaceInFormula r.1 p.1) a

/-- The references of a kind in the formula of the object at `a`. -/
def referencesAt (refs : Text → List (Text × Text)) (ds : Dataset) (a : Addr) : List (Text × Text) :=
  match ds.formulaAt a with
  | none => []
  | some f => refs f.toList

/-- implicit_references.py:56-84, body: one object. -/
def replaceReferencesAt (ds : Dataset) (a : Addr) : Except Err Dataset := do
  let ds1 ← foldE (replaceReference findById excName a) ds (referencesAt exchangeReferences ds a)
  foldE (replaceReference findPvById pvName a) ds1 (referencesAt pvReferences ds1 a)

/-- /repo/ocelot/transformations/parameterization/implicit_references.py:50-85 `replace_implicit_references` on one dataset. -/
def replaceImplicitReferences (ds : Dataset) : Except Err Dataset := foldE replaceReferencesAt ds ds.addrs

end Ocelot
