import Verif.Model.Extract

/-!
# The internal data format and its validation

Models /repo/ocelot/io/validate_internal.py (the voluptuous schemas), /repo/ocelot/io/validate_ecospold2.py:40-58 `validate_directory`, and the dictionaries
that extraction makes of ecospold2 files (/repo/ocelot/io/extract_ecospold2.py), key by key. `Model/Extract.lean` models the same extraction with structures for the
functions that work on the result; here nothing is left out, since validation looks at every key.

Of voluptuous the parts that the schemas use are modelled: literals, types, `Any`, lists, dictionaries with required and optional keys and without extra keys. Of an error only
its message matters, which is an oracle.
-/

namespace Ocelot

/-- Python values that extraction makes. A dictionary is a list of keys and values without repeated keys. -/
inductive PyVal where
  | none
  | bool (b : Bool)
  | int (i : Int)
  | float (q : ℚ)
  | str (s : String)
  | list (l : List PyVal)
  | dict (d : List (String × PyVal))

mutual
/-- A voluptuous schema. -/
inductive Sch where
  | lit (s : String)
  | none
  | str
  | float
  | int
  | bool
  | anyList
  | any (l : Schs)
  | listOf (s : Sch)
  | dict (fields : Fields)
/-- Alternatives. -/
inductive Schs where
  | nil
  | cons (s : Sch) (l : Schs)
/-- Keys of a dictionary: name, whether it is required, schema of the value. -/
inductive Fields where
  | nil
  | cons (key : String) (required : Bool) (s : Sch) (l : Fields)
end

/-- The keys that a dictionary may have. -/
def Fields.keys : Fields → List String
  | .nil => []
  | .cons k _ _ l => k :: l.keys

def Schs.of : List Sch → Schs
  | [] => .nil
  | s :: l => .cons s (Schs.of l)

def Fields.of : List (String × Bool × Sch) → Fields
  | [] => .nil
  | (k, r, s) :: l => .cons k r s (Fields.of l)

mutual
/-- `schema(value)` does not raise `Invalid`. -/
def Sch.accepts : Sch → PyVal → Bool
  | .lit s, v => match v with | .str t => s == t | _ => false
  | .none, v => match v with | .none => true | _ => false
  | .str, v => match v with | .str _ => true | _ => false
  | .float, v => match v with | .float _ => true | _ => false
  | .int, v => match v with | .int _ => true | .bool _ => true | _ => false
  | .bool, v => match v with | .bool _ => true | _ => false
  | .anyList, v => match v with | .list _ => true | _ => false
  | .any l, v => l.accepts v
  | .listOf s, v => match v with | .list l => l.all fun x => s.accepts x | _ => false
  | .dict f, v => match v with | .dict d => (d.all fun p => f.keys.contains p.1) && f.accepts d | _ => false
/-- Some alternative accepts the value. -/
def Schs.accepts : Schs → PyVal → Bool
  | .nil, _ => false
  | .cons s l, v => s.accepts v || l.accepts v
/-- Every key that is there has an accepted value, and required keys are there. -/
def Fields.accepts : Fields → List (String × PyVal) → Bool
  | .nil, _ => true
  | .cons k required s l, d => (match d.lookup k with | some x => s.accepts x | none => !required) && l.accepts d
end

/-- `Any('a', 'b', …)` -/
def oneOf (l : List String) : Sch := .any (Schs.of (l.map .lit))

/-- `Any(…)` -/
def Sch.anyOf (l : List Sch) : Sch := .any (Schs.of l)

/-- A dictionary schema. -/
def Sch.record (l : List (String × Bool × Sch)) : Sch := .dict (Fields.of l)

/-- A required and an optional key. -/
def need (k : String) (s : Sch) : String × Bool × Sch := (k, true, s)
def opt (k : String) (s : Sch) : String × Bool × Sch := (k, false, s)

/-! ## validate_internal.py -/

/-- validate_internal.py:7 -/
def validAccess : Sch := oneOf ["public", "licensees", "results only", "restricted"]

/-- ecospold2_meta.py:4-16 `SPECIAL_ACTIVITY_TYPE` -/
def activityTypeTexts : List (String × String) :=
  [("0", "transforming activity"), ("1", "market activity"), ("10", "market group"), ("2", "IO activity"), ("3", "residual activity"), ("4", "production mix"), ("5", "import activity"), ("6", "supply mix"),
    ("7", "export activity"), ("8", "re-export activity"), ("9", "correction activity")]

/-- ecospold2_meta.py:29-35 `INPUT_GROUPS` -/
def inputGroupTexts : List (String × String) := [("1", "materials/fuels"), ("2", "electricity/heat"), ("3", "services"), ("4", "from environment"), ("5", "from technosphere")]

/-- ecospold2_meta.py:37-43 `OUTPUT_GROUPS` -/
def outputGroupTexts : List (String × String) := [("0", "reference product"), ("2", "byproduct"), ("3", "material for treatment"), ("4", "to environment"), ("5", "stock addition")]

/-- ecospold2_meta.py:71-75 `BYPRODUCT_CLASSIFICATION` -/
def byproductTexts' : List (String × String) := [("allocatable product", "allocatable product"), ("Waste", "waste"), ("Recyclable", "recyclable")]

/-- ecospold2_meta.py:18-27 `TECHNOLOGY_LEVEL`, where `none` is the key `None` -/
def levelTexts : List (Option String × String) :=
  [(some "0", "undefined"), (some "None", "undefined"), (none, "undefined"), (some "1", "new"), (some "2", "modern"), (some "3", "current"), (some "4", "old"), (some "5", "outdated")]

/-- ecospold2_meta.py:64-69 `ACCESS_RESTRICTED` -/
def accessTexts : List (String × String) := [("0", "public"), ("1", "licensees"), ("2", "results only"), ("3", "restricted")]

/-- ecospold2_meta.py:53-62 `UNCERTAINTY_MAPPING` -/
def uncertaintyNames : List (String × String) :=
  [("maxValue", "maximum"), ("meanValue", "mean"), ("minValue", "minimum"), ("mostLikelyValue", "mode"), ("mostFrequentValue", "mode"), ("varianceWithPedigreeUncertainty", "variance with pedigree uncertainty"), ("standardDeviation95", "standard deviation 95%")]

/-- validate_internal.py:8 -/
def validActivityTypes : Sch := oneOf (activityTypeTexts.map (·.2))

/-- validate_internal.py:9-18 -/
def validAllocationMethod : Sch :=
  oneOf ["combined production with byproduct", "combined production without byproduct", "constrained market", "economic allocation", "no allocation", "recycling activity", "true value allocation", "waste treatment"]

/-- validate_internal.py:19 -/
def validByproducts : Sch := oneOf ["allocatable product", "waste", "recyclable"]

/-- validate_internal.py:20, with ecospold2_meta.py:18-27 -/
def validLevels : Sch := oneOf ["undefined", "new", "modern", "current", "old", "outdated"]

/-- validate_internal.py:24: the labels with integers, or nothing. `Any` compiles dictionaries with its own `required`, which is false, so that no label is required. -/
def validPedigree : Sch := .anyOf [.record (pedigreeLabelTable.map fun p => opt p.2 .int), .record []]

/-- validate_internal.py:26-33 -/
def validLognormal : Sch := .record [need "mean" .float, need "pedigree matrix" validPedigree, need "type" (.lit "lognormal"), need "variance with pedigree uncertainty" .float, opt "mu" .float, opt "variance" .float]

/-- validate_internal.py:35-41 -/
def validNormal : Sch := .record [need "mean" .float, need "pedigree matrix" validPedigree, need "type" (.lit "normal"), need "variance with pedigree uncertainty" .float, opt "variance" .float]

/-- validate_internal.py:43-48 -/
def validUniform : Sch := .record [need "maximum" .float, need "minimum" .float, need "pedigree matrix" validPedigree, need "type" (.lit "uniform")]

/-- validate_internal.py:50-56 -/
def validTriangular : Sch := .record [need "maximum" .float, need "minimum" .float, need "mode" .float, need "pedigree matrix" validPedigree, need "type" (.lit "triangular")]

/-- validate_internal.py:60-65 -/
def validBinomial : Sch := .record [need "n" .float, need "p" .float, need "pedigree matrix" validPedigree, need "type" (.lit "binomial")]

/-- validate_internal.py:67-73 -/
def validBeta : Sch := .record [need "maximum" .float, need "minimum" .float, need "mode" .float, need "pedigree matrix" validPedigree, need "type" (.lit "beta")]

/-- validate_internal.py:75-80 -/
def validGamma : Sch := .record [need "pedigree matrix" validPedigree, need "scale" .float, need "shape" .float, need "type" (.lit "gamma")]

/-- validate_internal.py:82-88 -/
def validUndefined : Sch := .record [need "maximum" .float, need "minimum" .float, need "pedigree matrix" validPedigree, need "standard deviation 95%" .float, need "type" (.lit "undefined")]

/-- validate_internal.py:92-101 -/
def validUncertainty : Sch := .anyOf [validBeta, validBinomial, validGamma, validLognormal, validNormal, validTriangular, validUndefined, validUniform]

/-- validate_internal.py:103-109 -/
def validProductionVolume : Sch := .record [need "amount" .float, opt "formula" .str, opt "uncertainty" validUncertainty, opt "variable" .str, opt "subtracted activity link volume" .float]

/-- validate_internal.py:111-119 -/
def validProperty : Sch := .record [need "amount" .float, need "id" .str, need "name" .str, need "unit" .str, opt "formula" .str, opt "uncertainty" validUncertainty, opt "variable" .str]

/-- validate_internal.py:121-129; without `required=True`, no key is required. -/
def validParameter : Sch := .record [opt "unit" .str, opt "amount" .float, opt "id" .str, opt "name" .str, opt "formula" .str, opt "uncertainty" validUncertainty, opt "variable" .str]

/-- validate_internal.py:133-146 -/
def elementarySchema : Sch :=
  .record [need "amount" .float, need "compartment" .str, need "id" .str, need "name" .str, need "subcompartment" .str, need "tag" (.lit "elementaryExchange"), need "type" (oneOf ["from environment", "to environment"]), need "unit" .str,
    opt "formula" .str, opt "properties" (.listOf validProperty), opt "uncertainty" validUncertainty, opt "variable" .str]

/-- validate_internal.py:148-163 -/
def activitySchema : Sch :=
  .record [need "amount" .float, need "id" .str, need "name" .str, need "tag" (.lit "intermediateExchange"), need "type" (oneOf ["from technosphere", "reference product", "byproduct", "dropped product"]), need "unit" .str,
    opt "activity link" .str, opt "byproduct classification" validByproducts, opt "conditional exchange" .bool, opt "formula" .str, opt "production volume" validProductionVolume, opt "properties" (.listOf validProperty),
    opt "uncertainty" validUncertainty, opt "variable" .str]

/-- /repo/ocelot/io/validate_internal.py:167-197 `dataset_schema` -/
def datasetSchema : Sch :=
  .record [need "exchanges" (.listOf (.anyOf [elementarySchema, activitySchema])), need "parameters" (.listOf validParameter), need "access restricted" validAccess, need "economic scenario" .str, need "end date" .str, need "filepath" .str,
    need "id" .str, need "parent" (.anyOf [.none, .str]), opt "code" .str, need "location" .str, need "name" .str, need "start date" .str, need "technology level" validLevels, need "type" validActivityTypes, need "dataset author" .str,
    need "data entry" .str, need "ISIC classification" .str, opt "allocation method" validAllocationMethod, opt "reference product" .str, opt "suppliers" .anyList]

/-! ## The dictionaries made by extraction -/

/-- The text of an element: an empty element has the text `None`. -/
def PyVal.ofText (s : String) : PyVal := if s = "" then .none else .str s

/-- `elem.get(key)` -/
def PyVal.ofAttr (o : Option String) : PyVal :=
  match o with
  | .none => .none
  | .some s => .str s

/-- `if …: data[key] = …` -/
def optEntry (k : String) : Option PyVal → List (String × PyVal)
  | none => []
  | some v => [(k, v)]

/-- extract_ecospold2.py:46-51 and 79-81: the dictionary of the pedigree matrix. -/
def pedigreeVal (l : List (String × Int)) : PyVal := .dict (l.map fun p => (p.1, .int p.2))

/-- extract_ecospold2.py:54-81 `extract_uncertainty` -/
def uncertaintyVal (X : XmlEnv) (unc : Elem) : Except Err PyVal := do
  let dist ← findDistribution unc
  let values ← mapE (fun p : String × String => do let v ← X.floatAttr (some p.2); return ((uncertaintyNames.lookup p.1).getD p.1, PyVal.float v)) dist.attrs
  let pedigree ← extractPedigree X unc
  let complete := if pedigree = [] ∧ (dist.tag = "lognormal" ∨ dist.tag = "normal") then pedigreeLabelTable.map fun p => (p.2, (5 : Int)) else pedigree
  return .dict (dictSet "pedigree matrix" (pedigreeVal complete) (dictSet "type" (.str dist.tag) (dictOf (·.1) (·.2) values)))

/-- `if hasattr(obj, tag): data['uncertainty'] = extract_uncertainty(obj.tag)` -/
def optUncertaintyVal (X : XmlEnv) (e : Elem) (t : String) : Except Err (Option PyVal) :=
  match e.child? t with
  | none => .ok none
  | some u => do let r ← uncertaintyVal X u; return some r

/-- extract_ecospold2.py:86: `float(text or 0)` -/
def volumeNumber (X : XmlEnv) (text : String) : Except Err ℚ := if text = "" then .ok 0 else X.floatAttr (some text)

/-- extract_ecospold2.py:84-94 `extract_production_volume` -/
def volumeVal (X : XmlEnv) (e : Elem) : Except Err PyVal := do
  let amount ← volumeNumber X ((e.get "productionVolumeAmount").getD "")
  let unc ← optUncertaintyVal X e "productionVolumeUncertainty"
  return .dict ([("amount", .float amount)] ++ optEntry "uncertainty" unc ++ optEntry "formula" ((X.stripped (e.get "productionVolumeMathematicalRelation")).map .str) ++
    optEntry "variable" ((X.stripped (e.get "productionVolumeVariableName")).map .str))

/-- `obj.unitName.text if hasattr(obj, 'unitName') else "dimensionless"` -/
def unitVal (e : Elem) : PyVal :=
  match e.child? "unitName" with
  | some u => .ofText u.text
  | none => .str "dimensionless"

/-- extract_ecospold2.py:97-110 `extract_property` -/
def propertyVal (X : XmlEnv) (e : Elem) : Except Err PyVal := do
  let amount ← X.floatAttr (e.get "amount")
  let name ← e.child "name"
  let unc ← optUncertaintyVal X e "uncertainty"
  return .dict ([("id", .ofAttr (e.get "propertyId")), ("amount", .float amount), ("name", .ofText name.text), ("unit", unitVal e)] ++ optEntry "uncertainty" unc ++
    optEntry "variable" ((givenText (e.get "variableName")).map .str) ++ optEntry "formula" ((X.stripped (e.get "mathematicalRelation")).map .str))

/-- extract_ecospold2.py:24-36 `extract_parameter` -/
def parameterVal (X : XmlEnv) (e : Elem) : Except Err PyVal := do
  let name ← e.child "name"
  let amount ← X.floatAttr (e.get "amount")
  let unc ← optUncertaintyVal X e "uncertainty"
  return .dict ([("name", .ofText name.text), ("id", .ofAttr (e.get "parameterId")), ("amount", .float amount), ("unit", unitVal e)] ++ optEntry "uncertainty" unc ++
    optEntry "variable" ((X.stripped (e.get "variableName")).map .str) ++ optEntry "formula" ((X.stripped (e.get "mathematicalRelation")).map .str))

/-- extract_ecospold2.py:121-123 -/
def typeVal (e : Elem) : Except Err String :=
  match e.child? "inputGroup" with
  | some g => readTable inputGroupTexts g.text
  | none => do let g ← e.child "outputGroup"; readTable outputGroupTexts g.text

/-- extract_ecospold2.py:131-134 -/
def classTexts : List Elem → Except Err (List String)
  | [] => .ok []
  | c :: rest =>
    if c.tag = "classification" then do
      let system ← c.child "classificationSystem"
      if system.text = "By-product classification" then do
        let value ← c.child "classificationValue"
        let more ← classTexts rest
        return value.text :: more
      else classTexts rest
    else classTexts rest

/-- extract_ecospold2.py:131-138 -/
def classVal (e : Elem) : Except Err (Option String) := do
  let texts ← classTexts e.children
  if texts.dedup.length < 2 then
    match texts with
    | [] => return none
    | t :: _ => do let c ← readTable byproductTexts' t; return some c
  else throw .assertionError

/-- extract_ecospold2.py:151-153 -/
def compartmentVal (e : Elem) (t : String) : Except Err (List (String × PyVal)) :=
  if hasSubtext "environment" t then do
    let c ← e.child "compartment"
    let comp ← c.child "compartment"
    let sub ← c.child "subcompartment"
    return [("compartment", .ofText comp.text), ("subcompartment", .ofText sub.text)]
  else return []

/-- extract_ecospold2.py:156-157 -/
def volumeFor (X : XmlEnv) (e : Elem) (t : String) : Except Err (Option PyVal) :=
  if t = "reference product" ∨ t = "byproduct" then do let v ← volumeVal X e; return some v else return none

/-- extract_ecospold2.py:164-170 -/
def conditionalVal (dsType t : String) (link : Option String) (amount : ℚ) : Option PyVal :=
  if hasSubtext "environment" t then none else some (.bool (link.isSome && dsType == "market activity" && t == "byproduct" && decide (amount < 0)))

/-- /repo/ocelot/io/extract_ecospold2.py:113-172 `extract_exchange` -/
def exchangeVal (X : XmlEnv) (dsType : String) (e : Elem) : Except Err PyVal := do
  let name ← e.child "name"
  let unit ← e.child "unitName"
  let amount ← X.floatAttr (e.get "amount")
  let type ← typeVal e
  let cls ← classVal e
  let props ← mapE (propertyVal X) (e.children.filter fun c => c.tag == "property")
  let comp ← compartmentVal e type
  let pv ← volumeFor X e type
  let unc ← optUncertaintyVal X e "uncertainty"
  return .dict ([("id", .ofAttr (e.get "id")), ("tag", .str e.tag), ("name", .ofText name.text), ("unit", .ofText unit.text), ("amount", .float amount), ("type", .str type)] ++
    optEntry "activity link" ((givenText (e.get "activityLinkId")).map .str) ++ optEntry "byproduct classification" (cls.map .str) ++
    optEntry "variable" ((X.stripped (e.get "variableName")).map .str) ++ optEntry "formula" ((X.stripped (e.get "mathematicalRelation")).map .str) ++ [("properties", .list props)] ++ comp ++
    optEntry "production volume" pv ++ optEntry "uncertainty" unc ++ optEntry "conditional exchange" (conditionalVal dsType type (givenText (e.get "activityLinkId")) amount))

/-- extract_ecospold2.py:39-43 `extract_isic_classification`; python returns `None` at the end of the loop, and `'ISIC' in None` is a `TypeError`. -/
def isicVal : List Elem → Except Err PyVal
  | [] => .ok .none
  | c :: rest =>
    if hasSubtext "classification" c.tag = true then do
      let system ← c.child "classificationSystem"
      if system.text = "" then throw .typeError
      else if hasSubtext "ISIC" system.text = true then do
        let value ← c.child "classificationValue"
        return .ofText value.text
      else isicVal rest
    else isicVal rest

/-- /repo/ocelot/io/extract_ecospold2.py:175-200 `extract_ecospold2_dataset` -/
def datasetVal (X : XmlEnv) (filepath : String) (e : Elem) : Except Err PyVal := do
  let desc ← e.child "activityDescription"
  let act ← desc.child "activity"
  let name ← act.child "activityName"
  let geo ← desc.child "geography"
  let loc ← geo.child "shortname"
  let typeText ← getKey (act.get "specialActivityType")
  let type ← readTable activityTypeTexts typeText
  let tech ← desc.child "technology"
  let level ← getKey (levelTexts.lookup (tech.get "technologyLevel"))
  let period ← desc.child "timePeriod"
  let scenario ← desc.child "macroEconomicScenario"
  let scenarioName ← scenario.child "name"
  let admin ← e.child "administrativeInformation"
  let publication ← admin.child "dataGeneratorAndPublication"
  let accessText ← getKey (publication.get "accessRestrictedTo")
  let access ← readTable accessTexts accessText
  let flow ← e.child "flowData"
  let parameters ← mapE (parameterVal X) (flow.children.filter fun c => hasSubtext "parameter" c.tag)
  let entry ← admin.child "dataEntryBy"
  let isic ← isicVal desc.children
  let exchanges ← mapE (exchangeVal X type) (flow.children.filter fun c => hasSubtext "Exchange" c.tag)
  return .dict [("filepath", .str filepath), ("id", .ofAttr (act.get "id")), ("parent", .ofAttr (act.get "parentActivityId")), ("name", .ofText name.text), ("location", .ofText loc.text), ("type", .str type),
    ("technology level", .str level), ("start date", .ofAttr (period.get "startDate")), ("end date", .ofAttr (period.get "endDate")), ("economic scenario", .ofText scenarioName.text), ("access restricted", .str access),
    ("parameters", .list parameters), ("dataset author", .ofAttr (publication.get "personName")), ("data entry", .ofAttr (entry.get "personName")), ("ISIC classification", isic), ("exchanges", .list exchanges)]

/-! ## validate_directory -/

/-- The report of `validate_directory`: what goes to the log file, one entry per message. -/
structure ValidationReport (α : Type) where
  errors : List (String × α)
  deriving DecidableEq, Repr

/-- The number printed, and whether "No errors found" is. -/
def ValidationReport.count {α : Type} (r : ValidationReport α) : ℕ := r.errors.length

/-- /repo/ocelot/io/validate_ecospold2.py:40-58 `validate_directory`, after the extraction; `check` is the schema, giving the message of an error. -/
def validateDirectory {α : Type} (check : α → Option String) (data : List α) : ValidationReport α :=
  ⟨(data.filterMap fun ds => (check ds).map fun m => (m, ds)).foldl (fun d p => dictSet p.1 p.2 d) []⟩

end Ocelot
