import Verif.Model.Storage
import Verif.Model.ActivityLinks

/-! # Extraction of ecospold2 files

/repo/ocelot/io/extract_ecospold2.py and the tables of /repo/ocelot/io/ecospold2_meta.py. An XML element is its tag without name space,
its attributes, its text and its children; an absent text (`None`) is the empty text. Comments and processing instructions are not modelled.
Parsing XML text, `float`, `int` and `str.strip` are oracles. -/

namespace Ocelot

inductive Elem where
  | mk (tag : String) (attrs : List (String × String)) (text : String) (children : List Elem)

namespace Elem

def tag : Elem → String | mk t _ _ _ => t
def attrs : Elem → List (String × String) | mk _ a _ _ => a
def text : Elem → String | mk _ _ t _ => t
def children : Elem → List Elem | mk _ _ _ c => c

/-- `elem.get(key)` -/
def get (e : Elem) (key : String) : Option String := e.attrs.lookup key

/-- The first child with this tag; `hasattr(elem, tag)` is that there is one. -/
def child? (e : Elem) (t : String) : Option Elem := e.children.find? fun c => c.tag == t

/-- `elem.tag`, an `AttributeError` if there is no such child. -/
def child (e : Elem) (t : String) : Except Err Elem :=
  match e.child? t with
  | some c => .ok c
  | none => .error .attributeError

end Elem

/-- `float`, `int` and `str.strip` for texts; `none` is a `ValueError`. -/
structure XmlEnv where
  float : String → Option ℚ
  int : String → Option Int
  strip : String → String
  /-- `objectify.parse`: the root element of the file's content -/
  parse : String → Except Err Elem

/-- `float(x)` for an attribute: `float(None)` is a `TypeError`. -/
def XmlEnv.floatAttr (X : XmlEnv) : Option String → Except Err ℚ
  | none => .error .typeError
  | some s => match X.float s with
    | some q => .ok q
    | none => .error .valueError

def XmlEnv.intAttr (X : XmlEnv) : Option String → Except Err Int
  | none => .error .typeError
  | some s => match X.int s with
    | some q => .ok q
    | none => .error .valueError

/-- An attribute that is absent or empty is false. -/
def givenText : Option String → Option String
  | some "" => none
  | o => o

/-- A stripped optional attribute: extract_ecospold2.py:32-35 and often. -/
def XmlEnv.stripped (X : XmlEnv) (o : Option String) : Option String := (givenText o).map X.strip

/-- Reading a table. -/
def readTable {α : Type} (l : List (String × α)) (k : String) : Except Err α := getKey (l.lookup k)

/-- ecospold2_meta.py:45-51 `PEDIGREE_LABELS` -/
def pedigreeLabelTable : List (String × String) :=
  [("reliability", "reliability"), ("completeness", "completeness"), ("temporalCorrelation", "temporal correlation"), ("geographicalCorrelation", "geographical correlation"), ("furtherTechnologyCorrelation", "further technology correlation")]

/-- ecospold2_meta.py:53-62 `UNCERTAINTY_MAPPING` -/
def uncertaintyTable : List (String × String) :=
  [("maxValue", "maximum"), ("meanValue", "mean"), ("minValue", "minimum"), ("mostLikelyValue", "mode"), ("mostFrequentValue", "mode"), ("varianceWithPedigreeUncertainty", "variance with pedigree uncertainty"), ("standardDeviation95", "standard deviation 95%")]

/-- ecospold2_meta.py:29-35 `INPUT_GROUPS` -/
def inputGroups : List (String × ExcType) :=
  [("1", .other "materials/fuels"), ("2", .other "electricity/heat"), ("3", .other "services"), ("4", .fromEnvironment), ("5", .fromTechnosphere)]

/-- ecospold2_meta.py:37-43 `OUTPUT_GROUPS` -/
def outputGroups : List (String × ExcType) :=
  [("0", .referenceProduct), ("2", .byproduct), ("3", .other "material for treatment"), ("4", .toEnvironment), ("5", .other "stock addition")]

/-- ecospold2_meta.py:71-75 `BYPRODUCT_CLASSIFICATION` -/
def byproductTable : List (String × Cls) := [("allocatable product", .allocatable), ("Waste", .waste), ("Recyclable", .recyclable)]

/-- ecospold2_meta.py:4-16 `SPECIAL_ACTIVITY_TYPE` -/
def activityTypes : List (String × DsType) :=
  [("0", .transforming), ("1", .market), ("10", .marketGroup), ("2", .other "IO activity"), ("3", .other "residual activity"), ("4", .other "production mix"), ("5", .other "import activity"), ("6", .other "supply mix"), ("7", .other "export activity"), ("8", .other "re-export activity"), ("9", .other "correction activity")]

/-- ecospold2_meta.py:18-27 `TECHNOLOGY_LEVEL`, for a level that is given; an absent one is undefined. -/
def technologyLevels : List (String × String) := [("0", "undefined"), ("None", "undefined"), ("1", "new"), ("2", "modern"), ("3", "current"), ("4", "old"), ("5", "outdated")]

/-- ecospold2_meta.py:64-69 `ACCESS_RESTRICTED` -/
def accessTable : List (String × String) := [("0", "public"), ("1", "licensees"), ("2", "results only"), ("3", "restricted")]

/-- extract_ecospold2.py:46-51 `extract_pedigree_matrix`; `[]` is the empty dictionary. -/
def extractPedigree (X : XmlEnv) (unc : Elem) : Except Err (List (String × Int)) :=
  match unc.child? "pedigreeMatrix" with
  | none => .ok []
  | some m => mapE (fun p : String × String => do let i ← X.intAttr (m.get p.1); return (p.2, i)) pedigreeLabelTable

/-- extract_ecospold2.py:67-68 -/
def distributionLabels : List String := ["lognormal", "normal", "triangular", "beta", "uniform", "undefined", "binomial", "gamma"]

/-- The kind named by a distribution's tag. -/
def kindOf : String → UncKind
  | "lognormal" => .lognormal
  | "normal" => .normal
  | "triangular" => .triangular
  | "undefined" => .undefined
  | "uniform" => .uniform
  | s => .other s

/-- The last value written under a key. -/
def lastOf (l : List (String × ℚ)) (k : String) : Option ℚ := l.reverse.lookup k

/-- extract_ecospold2.py:69-71: the first distribution, in the order of the labels. Without one python raises `StopIteration`, for which `indexError` stands here. -/
def findDistribution (unc : Elem) : Except Err Elem :=
  match distributionLabels.findSome? unc.child? with
  | some d => .ok d
  | none => .error .indexError

/-- extract_ecospold2.py:54-81 `extract_uncertainty`. Values under keys that no modelled code reads (such as `standard deviation 95%`) must be numbers
and are then forgotten. -/
def extractUncertainty (X : XmlEnv) (unc : Elem) : Except Err Unc := do
  let dist ← findDistribution unc
  let values ← mapE (fun p : String × String => do let v ← X.floatAttr (some p.2); return ((uncertaintyTable.lookup p.1).getD p.1, v)) dist.attrs
  let pedigree ← extractPedigree X unc
  let complete := if pedigree = [] ∧ (dist.tag = "lognormal" ∨ dist.tag = "normal") then pedigreeLabelTable.map fun p => (p.2, (5 : Int)) else pedigree
  return { kind := some (kindOf dist.tag), minimum := lastOf values "minimum", maximum := lastOf values "maximum", mode := lastOf values "mode", mean := lastOf values "mean", mu := lastOf values "mu", variance := lastOf values "variance", variancePed := lastOf values "variance with pedigree uncertainty", pedigreeInner := some complete }

/-- `if hasattr(obj, tag): data['uncertainty'] = extract_uncertainty(obj.tag)` -/
def optUncertainty (X : XmlEnv) (e : Elem) (t : String) : Except Err (Option Unc) :=
  match e.child? t with
  | none => .ok none
  | some u => do let r ← extractUncertainty X u; return some r

/-- extract_ecospold2.py:85: an absent or empty amount is zero. -/
def volumeAmount (X : XmlEnv) (e : Elem) : Except Err ℚ :=
  match givenText (e.get "productionVolumeAmount") with
  | none => .ok 0
  | some s => X.floatAttr (some s)

/-- extract_ecospold2.py:84-94 `extract_production_volume` -/
def extractVolume (X : XmlEnv) (e : Elem) : Except Err PV := do
  let amount ← volumeAmount X e
  let unc ← optUncertainty X e "productionVolumeUncertainty"
  return { amount := amount, uncertainty := unc, formula := X.stripped (e.get "productionVolumeMathematicalRelation"), var := X.stripped (e.get "productionVolumeVariableName") }

/-- `obj.unitName.text if hasattr(obj, 'unitName') else "dimensionless"` -/
def unitOf (e : Elem) : String :=
  match e.child? "unitName" with
  | some u => u.text
  | none => "dimensionless"

/-- extract_ecospold2.py:97-110 `extract_property`; the variable is not stripped. An absent id is the empty text. -/
def extractProperty (X : XmlEnv) (e : Elem) : Except Err Prop' := do
  let amount ← X.floatAttr (e.get "amount")
  let name ← e.child "name"
  let unc ← optUncertainty X e "uncertainty"
  return { id := (e.get "propertyId").getD "", amount := amount, name := name.text, unit := unitOf e, uncertainty := unc, var := givenText (e.get "variableName"), formula := X.stripped (e.get "mathematicalRelation") }

/-- extract_ecospold2.py:24-36 `extract_parameter` -/
def extractParameter (X : XmlEnv) (e : Elem) : Except Err Param := do
  let name ← e.child "name"
  let amount ← X.floatAttr (e.get "amount")
  let unc ← optUncertainty X e "uncertainty"
  return { id := (e.get "parameterId").getD "", amount := amount, name := name.text, unit := unitOf e, uncertainty := unc, var := X.stripped (e.get "variableName"), formula := X.stripped (e.get "mathematicalRelation") }

/-- extract_ecospold2.py:121-123: the type from the input group, or else the output group. -/
def extractType (e : Elem) : Except Err ExcType :=
  match e.child? "inputGroup" with
  | some g => readTable inputGroups g.text
  | none => do let g ← e.child "outputGroup"; readTable outputGroups g.text

/-- extract_ecospold2.py:131-134: the byproduct classifications of an exchange. -/
def byproductTexts (e : Elem) : Except Err (List String) :=
  flatMapE (fun c : Elem => do
    let system ← c.child "classificationSystem"
    if system.text = "By-product classification" then
      let value ← c.child "classificationValue"
      return [value.text]
    else return []) (e.children.filter fun c => c.tag == "classification")

/-- extract_ecospold2.py:135-138: at most one different text. -/
def extractClass (e : Elem) : Except Err (Option Cls) := do
  let texts ← byproductTexts e
  match texts with
  | [] => return none
  | t :: rest =>
    if rest.all fun s => s == t then
      let c ← readTable byproductTable t
      return some c
    else throw .assertionError

/-- extract_ecospold2.py:151-153: compartments of environmental flows. -/
def extractCompartment (e : Elem) (t : ExcType) : Except Err (Option (String × String)) :=
  if t = .fromEnvironment ∨ t = .toEnvironment then do
    let c ← e.child "compartment"
    let comp ← c.child "compartment"
    let sub ← c.child "subcompartment"
    return some (comp.text, sub.text)
  else return none

/-- extract_ecospold2.py:156-157: the production volume of products. -/
def extractVolumeFor (X : XmlEnv) (e : Elem) (t : ExcType) : Except Err (Option PV) :=
  if t = .referenceProduct ∨ t = .byproduct then do let v ← extractVolume X e; return some v else return none

/-- extract_ecospold2.py:164-170: the flag for constrained exchanges. -/
def conditionalFlag (dsType : DsType) (t : ExcType) (link : Option String) (amount : ℚ) : Option Bool :=
  if t = .fromEnvironment ∨ t = .toEnvironment then none else some (decide (link.isSome ∧ dsType = .market ∧ t = .byproduct ∧ amount < 0))

/-- /repo/ocelot/io/extract_ecospold2.py:113-172 `extract_exchange` -/
def extractExchange (X : XmlEnv) (dsType : DsType) (e : Elem) : Except Err Exchange := do
  let name ← e.child "name"
  let unit ← e.child "unitName"
  let amount ← X.floatAttr (e.get "amount")
  let type ← extractType e
  let cls ← extractClass e
  let props ← mapE (extractProperty X) (e.children.filter fun c => c.tag == "property")
  let comp ← extractCompartment e type
  let pv ← extractVolumeFor X e type
  let unc ← optUncertainty X e "uncertainty"
  return { id := (e.get "id").getD "", tag := e.tag, name := name.text, unit := unit.text, amount := amount, type := type, activityLink := givenText (e.get "activityLinkId"), cls := cls, var := X.stripped (e.get "variableName"), formula := X.stripped (e.get "mathematicalRelation"), properties := props, compartment := comp, pv := pv, uncertainty := unc, conditional := conditionalFlag dsType type (givenText (e.get "activityLinkId")) amount }

/-- `sub in s` -/
def hasSubtext (sub s : String) : Bool := s.toList.tails.any fun t => sub.toList.isPrefixOf t

/-- extract_ecospold2.py:39-43 `extract_isic_classification`; `'ISIC' in None` is a `TypeError`. -/
def extractIsic (desc : Elem) : List Elem → Except Err (Option String)
  | [] => .ok none
  | c :: rest =>
    if hasSubtext "classification" c.tag then do
      let system ← c.child "classificationSystem"
      if system.text = "" then throw .typeError
      else if hasSubtext "ISIC" system.text then
        let value ← c.child "classificationValue"
        return some value.text
      else extractIsic desc rest
    else extractIsic desc rest

/-- extract_ecospold2.py:183: the technology level, undefined if it is not given. -/
def extractLevel : Option String → Except Err String
  | none => .ok "undefined"
  | some s => readTable technologyLevels s

/-- A present value of the remaining metadata. -/
def metaEntry (k : String) : Option String → List (String × String)
  | none => []
  | some v => [(k, v)]

/-- /repo/ocelot/io/extract_ecospold2.py:175-200 `extract_ecospold2_dataset`. An absent id is the empty text; metadata that is `None` is left out of `extra`. -/
def extractDataset (X : XmlEnv) (filepath : String) (e : Elem) : Except Err Dataset := do
  let desc ← e.child "activityDescription"
  let act ← desc.child "activity"
  let name ← act.child "activityName"
  let geo ← desc.child "geography"
  let loc ← geo.child "shortname"
  let typeText ← getKey (act.get "specialActivityType")
  let type ← readTable activityTypes typeText
  let tech ← desc.child "technology"
  let level ← extractLevel (tech.get "technologyLevel")
  let period ← desc.child "timePeriod"
  let scenario ← desc.child "macroEconomicScenario"
  let scenarioName ← scenario.child "name"
  let admin ← e.child "administrativeInformation"
  let publication ← admin.child "dataGeneratorAndPublication"
  let accessText ← getKey (publication.get "accessRestrictedTo")
  let access ← readTable accessTable accessText
  let flow ← e.child "flowData"
  let parameters ← mapE (extractParameter X) (flow.children.filter fun c => hasSubtext "parameter" c.tag)
  let entry ← admin.child "dataEntryBy"
  let isic ← extractIsic desc desc.children
  let exchanges ← mapE (extractExchange X type) (flow.children.filter fun c => hasSubtext "Exchange" c.tag)
  return { filepath := filepath, id := (act.get "id").getD "", parent := act.get "parentActivityId", name := name.text, location := loc.text, type := type, technologyLevel := some level, startDate := period.get "startDate", endDate := period.get "endDate", parameters := parameters, exchanges := exchanges, extra := [("economic scenario", scenarioName.text), ("access restricted", access)] ++ metaEntry "dataset author" (publication.get "personName") ++ metaEntry "data entry" (entry.get "personName") ++ metaEntry "ISIC classification" isic }

/-- /repo/ocelot/io/extract_ecospold2.py:203-212 `generic_extractor`: one file. -/
def extractFile (X : XmlEnv) (filepath content : String) : Except Err (List Dataset) := do
  let root ← X.parse content
  mapE (extractDataset X filepath) root.children

/-- The environment of `extractAll` for ecospold2 files. -/
def ecospold (lower : String → String) (X : XmlEnv) : ExtractEnv Dataset := ⟨lower, extractFile X⟩

/-! ## The worker pool -/

/-- A worker has extracted a file: its result goes to the place of the file. -/
def poolStep {α β : Type} (f : α → Except Err β) (xs : List α) (table : List (Option β)) (i : ℕ) : Except Err (List (Option β)) :=
  match xs[i]? with
  | none => .ok table
  | some x => do let y ← f x; return table.set i (some y)

/-- extract_ecospold2.py:239 `pool.map`: the workers finish the files in some order; a failure is raised, otherwise the results are returned in the order of the files. -/
def poolMap {α β : Type} (f : α → Except Err β) (xs : List α) (order : List ℕ) : Except Err (List (Option β)) :=
  foldE (poolStep f xs) (xs.map fun _ => none) order

/-- /repo/ocelot/io/extract_ecospold2.py:215-249 `extract_ecospold2_directory` with the pool, line 249 flattening the lists. -/
def extractPool {α : Type} (E : ExtractEnv α) (d : SrcDir) (order : List ℕ) : Except Err (List α) := do
  let files := d.files.filter fun f => E.isSpold f.name
  let lists ← poolMap (fun f : SrcFile => E.parse f.name f.content) files order
  return (lists.filterMap id).flatten

end Ocelot
