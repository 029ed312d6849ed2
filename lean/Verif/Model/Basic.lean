import Mathlib.Algebra.Order.Field.Rat
import Mathlib.Data.List.Basic

/-!
# Data model

Python dictionaries are modelled by structures; an optional key is an `Option` field (`none` = key
absent).  Reading an absent key is a `KeyError`, i.e. `.error .keyError`.
Fields that no modelled function reads or writes (comments, ISIC classification, authors, units of
properties ...) are omitted or collected in `extra`.

Sources: /repo/ocelot/io/validate_internal.py:26-197 (schemas),
/repo/ocelot/io/extract_ecospold2.py:24-200 (what extraction produces).
-/

namespace Ocelot

/-- Exception classes that modelled code can raise.
/repo/ocelot/errors.py (custom classes) plus the built-in exceptions used implicitly.
`nanValue` is not an exception: it marks computations where pandas/numpy silently produce NaN
(division of zero by zero in a data frame column). `parameterError` stands for everything that
`bw2parameters` raises, `unboundLocal` for `UnboundLocalError`, `osError` for `OSError` and its subclasses. -/
inductive Err where
  | keyError | valueError | zeroDivisionError | typeError | assertionError | attributeError
  | indexError | unboundLocal | nanValue | parameterError
  | zeroProduction | identicalVariables | invalidMultioutputDataset | outputDirectoryError
  | parameterizationError | unsupportedDistribution | invalidExchange | multipleGlobalDatasets
  | unparsableFormula | invalidMarketExchange | invalidMarket | unresolvableActivityLink
  | missingMandatoryProperty | overlappingActivities | identicalDatasets | overlappingMarkets
  | invalidTransformationFunction | missingSupplier | missingAlternativeProducer | marketGroupError
  | osError
  deriving DecidableEq, Repr

/-- `exc['type']`: /repo/ocelot/io/ecospold2_meta.py INPUT_GROUPS / OUTPUT_GROUPS, plus
`dropped product` (/repo/ocelot/transformations/utils.py:271).  `other` is any other string. -/
inductive ExcType where
  | referenceProduct | byproduct | fromTechnosphere | fromEnvironment | toEnvironment
  | droppedProduct | other (s : String)
  deriving DecidableEq, Repr

/-- `exc['byproduct classification']`: /repo/ocelot/io/ecospold2_meta.py BYPRODUCT_CLASSIFICATION. -/
inductive Cls where
  | allocatable | waste | recyclable
  deriving DecidableEq, Repr

/-- `ds['type']`: /repo/ocelot/io/ecospold2_meta.py SPECIAL_ACTIVITY_TYPE; `other` covers the four
types Ocelot never tests for. -/
inductive DsType where
  | transforming | market | marketGroup | other (s : String)
  deriving DecidableEq, Repr

/-- `exc['uncertainty']['type']`; `other` is any distribution not in TYPE_MAPPING
(/repo/ocelot/transformations/uncertainty/__init__.py:22-29), e.g. beta, gamma, binomial. -/
inductive UncKind where
  | lognormal | normal | triangular | undefined | uniform | other (s : String)
  deriving DecidableEq, Repr

/-- An uncertainty dictionary (/repo/ocelot/io/validate_internal.py:26-101).  All keys optional. -/
structure Unc where
  kind : Option UncKind := none
  minimum : Option ℚ := none
  maximum : Option ℚ := none
  mode : Option ℚ := none
  mean : Option ℚ := none
  mu : Option ℚ := none
  variance : Option ℚ := none
  /-- key `variance with pedigree uncertainty` -/
  variancePed : Option ℚ := none
  negative : Option Bool := none
  /-- key `pedigree matrix` inside the uncertainty dictionary; extraction puts it here -/
  pedigreeInner : Option (List (String × Int)) := none
  deriving DecidableEq, Repr

/-- The keys shared by every numeric object: exchanges, production volumes, properties and dataset
parameters (/repo/ocelot/transformations/utils.py:105-134 iterates over exactly these). -/
structure NumObj where
  amount : ℚ
  formula : Option String := none
  var : Option String := none
  uncertainty : Option Unc := none
  /-- key `pedigree matrix` on the object itself (where `distributions.py` and `pedigree.py` look) -/
  pedigree : Option (List (String × Int)) := none
  deriving DecidableEq, Repr

/-- `exc['production volume']`. The key `amount` is always present once extracted. -/
structure PV extends NumObj where
  /-- `subtracted activity link volume` -/
  subtracted : Option ℚ := none
  originalAmount : Option ℚ := none
  globalAmount : Option ℚ := none
  originalTotal : Option ℚ := none
  deriving DecidableEq, Repr

/-- A property of an exchange (/repo/ocelot/io/validate_internal.py:111-119). -/
structure Prop' extends NumObj where
  id : String := ""
  name : String
  unit : String := ""
  deriving DecidableEq, Repr

/-- A dataset-level parameter (/repo/ocelot/io/validate_internal.py:121-129). -/
structure Param extends NumObj where
  id : String := ""
  name : String := ""
  unit : String := ""
  deriving DecidableEq, Repr

/-- An exchange.  Keys `location`, `code`, `technology level`, `activity` are also set on copies by
`annotate_exchange` (/repo/ocelot/transformations/locations/markets.py:19-27). -/
structure Exchange extends NumObj where
  id : String := ""
  name : String
  unit : String := ""
  tag : String := ""
  type : ExcType
  /-- `byproduct classification` -/
  cls : Option Cls := none
  activityLink : Option String := none
  /-- `conditional exchange` -/
  conditional : Option Bool := none
  pv : Option PV := none
  /-- `properties`; an absent key behaves as the empty list everywhere it is read -/
  properties : List Prop' := []
  compartment : Option (String × String) := none
  originalId : Option String := none
  code : Option String := none
  location : Option String := none
  technologyLevel : Option String := none
  activity : Option String := none
  deriving DecidableEq, Repr

/-- A dataset (/repo/ocelot/io/validate_internal.py:167-197). -/
structure Dataset where
  name : String
  location : String := "GLO"
  type : DsType := .transforming
  exchanges : List Exchange := []
  parameters : List Param := []
  id : String := ""
  parent : Option String := none
  filepath : String := ""
  /-- `reference product` -/
  refProduct : Option String := none
  unit : Option String := none
  startDate : Option String := none
  endDate : Option String := none
  technologyLevel : Option String := none
  /-- remaining metadata copied along: economic scenario, access restricted, author, data entry -/
  extra : List (String × String) := []
  code : Option String := none
  suppliers : Option (List Exchange) := none
  /-- `allocation method` -/
  allocationMethod : Option String := none
  deriving DecidableEq, Repr

/-- Reading a mandatory dictionary key. -/
def getKey {α} (o : Option α) : Except Err α :=
  match o with
  | some a => .ok a
  | none => .error .keyError

/-- The numeric constants `math.log` and `math.e` as oracles. No property of them is assumed by the
model; theorems state what they need. -/
structure MathEnv where
  log : ℚ → ℚ
  e : ℚ

end Ocelot
