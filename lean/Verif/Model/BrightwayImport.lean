import Verif.Model.Brightway

/-! # Import of a result into a Brightway2 project

/repo/ocelot/io/brightway2.py:155-191 (`import_into_brightway2`). The Brightway2 packages are not part of the repository. What is used of them is assumed to work as documented: the
strategies do not change inputs and amounts, `match_database` sets the input of environmental flows it knows, `statistics` counts the exchanges without input, and `write_database` stores
the activities under the name of the database and may refuse to. -/

namespace Ocelot

/-- An element of the caller's list: a dataset, or an activity that is already translated. -/
inductive ListItem where
  | ocelot (ds : Dataset)
  | brightway (a : BwActivity)
  deriving DecidableEq, Repr

/-- A Brightway2 project: `bw2.databases` with their activities. -/
abbrev Project := List (String × List BwActivity)

/-- What the import depends on. -/
structure BwEnv where
  /-- brightway2.py:2-6: the packages are there -/
  installed : Bool
  /-- `importer.apply_strategies()` and `importer.match_database("biosphere3")`: the flow of the database `biosphere3` for a name, unit and compartments -/
  flowCode : String × String × String × String → Option String
  /-- `importer.write_database()` does not refuse the activities -/
  accepts : List BwActivity → Bool

/-- What the import returns or raises. -/
inductive ImportResult where
  | database (name : String)
  | importer (acts : List BwActivity)
  | importError
  | raised (e : Err)
  deriving DecidableEq, Repr

/-- brightway2.py:96-121 for an element of the caller's list. A translated activity has the keys that are copied, but no exchange of type `reference product`, and
`get_single_reference_product` raises a `ValueError`. -/
def translateItem (db : String) : ListItem → Except Err BwActivity
  | .ocelot ds => translateActivity db ds
  | .brightway _ => .error .valueError

/-- brightway2.py:180 `match_database`, one exchange. -/
def matchExchange (E : BwEnv) (b : BwExchange) : BwExchange :=
  match b.type, b.flow with
  | .biosphere, some f => { b with input := (E.flowCode f).map fun c => ("biosphere3", c) }
  | _, _ => b

/-- brightway2.py:179-180, one activity. -/
def matchActivity (E : BwEnv) (a : BwActivity) : BwActivity := { a with exchanges := a.exchanges.map (matchExchange E) }

/-- brightway2.py:181 `importer.statistics()[2]`: the number of exchanges without input. -/
def unlinkedCount (acts : List BwActivity) : ℕ := ((acts.flatMap (·.exchanges)).filter fun b => b.input.isNone).length

/-- /repo/ocelot/io/brightway2.py:155-191 `import_into_brightway2`: the caller's list and the project afterwards, and what is returned. The elements of the list are changed by
`match_database`, as the importer works on the same objects. -/
def importIntoBrightway (E : BwEnv) (db : String) (data : List ListItem) (p : Project) : List ListItem × Project × ImportResult :=
  if !E.installed then (data, p, .importError)
  else if db ∈ p.map (·.1) then (data, p, .raised .assertionError)
  else match mapE (translateItem db) data with
    | .error e => (data, p, .raised e)
    | .ok acts =>
      let acts := acts.map (matchActivity E)
      if unlinkedCount acts ≠ 0 then (acts.map .brightway, p, .importer acts)
      else if E.accepts acts then (acts.map .brightway, p ++ [(db, acts)], .database db)
      else (acts.map .brightway, p, .raised .valueError)

end Ocelot
