import Verif.Model.Utils

/-! # Export to Brightway2

/repo/ocelot/io/brightway2.py:1-152 (`Brightway2Converter`). `import_into_brightway2` (lines 155-191) hands the result to the
Brightway2 packages and is not modelled. -/

namespace Ocelot

inductive BwType where
  | production | technosphere | biosphere
  deriving DecidableEq, Repr

/-- A translated exchange (brightway2.py:123-152). `input` is set for production and technosphere, `flow` (name, unit,
compartment, subcompartment) for biosphere. -/
structure BwExchange where
  type : BwType
  amount : ℚ
  input : Option (String × String) := none
  flow : Option (String × String × String × String) := none
  deriving DecidableEq, Repr

/-- A translated activity (brightway2.py:96-121). The keys `economic scenario`, `dataset author` and `data entry` are in `extra`. -/
structure BwActivity where
  code : String
  name : String
  location : String
  filepath : String
  startDate : String
  endDate : String
  technologyLevel : String
  extra : List (String × String)
  database : String
  unit : String
  referenceProduct : String
  productionAmount : ℚ
  exchanges : List BwExchange
  deriving DecidableEq, Repr

/-- brightway2.py:10-11 `refinery_gas_is_the_bane_of_my_existence`; an empty code counts as none. -/
def refineryGasOk (e : Exchange) : Bool := e.name != "refinery gas" || e.code.getD "" != ""

/-- brightway2.py:123-152: the functions in `EXCHANGE_MAPPING`, lines 97-103. -/
def translateExchange (db : String) (e : Exchange) : Except Err BwExchange :=
  match e.type with
  | .referenceProduct => do let c ← getKey e.code; return ⟨.production, e.amount, some (db, c), none⟩
  | .byproduct => do let c ← getKey e.code; return ⟨.technosphere, -1 * e.amount, some (db, c), none⟩
  | .fromTechnosphere => do let c ← getKey e.code; return ⟨.technosphere, e.amount, some (db, c), none⟩
  | .fromEnvironment => do let c ← getKey e.compartment; return ⟨.biosphere, e.amount, none, some (e.name, e.unit, c.1, c.2)⟩
  | .toEnvironment => do let c ← getKey e.compartment; return ⟨.biosphere, e.amount, none, some (e.name, e.unit, c.1, c.2)⟩
  | .droppedProduct => .error .keyError
  | .other _ => .error .keyError

/-- brightway2.py:117-119: the condition of the comprehension. -/
def exported (e : Exchange) : Bool := e.amount != 0 && refineryGasOk e

/-- /repo/ocelot/io/brightway2.py:96-121 `translate_activity`. A date or level that is `None` (attribute absent in the source) counts as missing here,
where the code would export `None`; that `economic scenario`, `dataset author` and `data entry` are there, as in everything that is extracted, is not checked. -/
def translateActivity (db : String) (ds : Dataset) : Except Err BwActivity := do
  let code ← getKey ds.code
  let endDate ← getKey ds.endDate
  let startDate ← getKey ds.startDate
  let level ← getKey ds.technologyLevel
  let rp ← getSingleReferenceProduct ds
  let exchanges ← mapE (translateExchange db) (ds.exchanges.filter exported)
  return { code := code, name := ds.name, location := ds.location, filepath := ds.filepath, startDate := startDate, endDate := endDate, technologyLevel := level, extra := ds.extra, database := db, unit := rp.unit, referenceProduct := rp.name, productionAmount := rp.amount, exchanges := exchanges }

/-- /repo/ocelot/io/brightway2.py:89-93 `convert_to_brightway2`, with the generator exhausted. -/
def convertToBrightway (db : String) (data : List Dataset) : Except Err (List BwActivity) := mapE (translateActivity db) data

end Ocelot
