# Formal model of OcelotProject/Ocelot in Lean 4

## 1. Shape of the development

* `lean/Verif/Model/*.lean` – the model. One Lean definition per Python function (or per
  branch-heavy part of one), each with a comment giving the file and lines it models and any
  simplification made.
* `lean/Verif/Spec/*.lean` and the `Spec` namespace at the head of the property files – small
  specifications used by property statements, written without reference to the model's helper functions.
* `lean/Verif/Proofs/*.lean` – auxiliary lemmas.
* `lean/Verif/Props/*.lean` – the property theorems (`C01_…`), each followed by `example`s showing
  that its hypotheses are met by a concrete non-trivial case.
* `properties.jsonl`, `MANIFEST.json` – the properties in English and the theorems that settle them.
  Both are generated: `tools/props.py`, `tools/manifest.py`.
* `seeded/LOG.jsonl` – wrong programs tried against the theorems (`tools/mutate.py` applies an edit to
  a scratch copy of the model, rebuilds, and records which theorems fail).

Python objects are dictionaries with optional keys.  They are modelled by structures with
`Option` fields (`none` = key absent); reading a key that is absent is a `KeyError`, modelled as
`.error .keyError`.  Exceptions are values: functions that can raise return `Except Err α`.
In-place mutation is modelled by returning the new value; where aliasing or a loop-carried Python
variable matters (for example the stale `candidates` variable in `link_consumers_to_markets`, or
datasets that are changed while other datasets refer to them in `add_hard_linked_production_volumes`),
the model carries that state explicitly.

A theorem about a function that can raise has the form "if it returns, then …"; where a user relies on
it returning, there is a separate theorem that says exactly when it does (`…_total`, `…_exact`), and
examples show runs that return. `Verif.Props.Pipeline` contains complete runs of the cut-off and the
consequential model, evaluated by the kernel.

## 2. Trusted base

* Lean 4.33 kernel, Mathlib as installed.  Axioms in theorems: `propext`, `Classical.choice`,
  `Quot.sound` and nothing else (`vcheck` lists the axioms of every theorem). No `sorry`, no own axioms,
  no `native_decide`, no `bv_decide`. `decide +kernel` is used only for closed statements about literals
  (examples and finite tables of the code), and is evaluated by the kernel.
* That the model is what the code does. This was established by reading only: the sandbox can not run
  the code. Every definition cites the lines it models. Known simplifications:
  * Python floats are exact rationals `ℚ`; NaN, infinities, overflow and underflow are not modelled. Rounding is modelled in
    `Model/Rounded` and `Model/RoundedLinking` only, where scaling, normalisation, economic allocation and market shares are written a second time with every
    operation rounded (C120–C123; `C120_exact` says that without rounding the normalisation there is the one of `Model/Utils`). Division
    by zero is an explicit error (`ZeroDivisionError`) or, in pandas and numpy, the pseudo-error
    `nanValue`: where the code would go on with a NaN, the model stops.
  * `math.log`, `math.e`, `hashlib.md5`, `str.lower`, whitespace, reading numbers from text, the formula
    parser and evaluator (`ast`, `asteval`, `bw2parameters`), the XML parser, the order in which sets
    are iterated, the identifiers made by `uuid4` and the clock are parameters of the model. Theorems hold
    for every value of them, or state the hypothesis that they need (for example that a set is
    iterated in some order, each element once).
  * The interpreter of formulas is taken to raise what the code expects it to raise: `ZeroDivisionError` for a division by zero
    (`recalculation.py:43` catches it) and an error for an unknown name. A version of `asteval` that prints the error and returns
    `None` instead is outside the model.
  * Texts in formulas are lists of characters; regular expressions are modelled by functions on these.
  * Results of functions with `lru_cache` and of topology functions are treated as values that nobody
    changes (C37 proves for the cache itself that it is invisible).
  * Of `pickle` it is assumed (C114) that a pickle can be read again, and that one without its end cannot be read; of the operating system (C115, C116)
    that writes of one file take place one after the other at each writer's position, and that deleting an entry of a directory changes its `ctime`.
  * Log messages, progress bars and documentation attributes are not modelled, except where a property is
    about the log or the report (C62, C64, C79).
  * If several exceptions are possible, the model may raise another one of them than the code, where a comment
    says so; it never returns where the code raises.

### What is modelled

| code | model |
|---|---|
| `transformations/uncertainty/*` | `Uncertainty`, `Stats` (`to_stats_arrays`; standard deviations are real square roots) |
| `transformations/utils.py`, `data_helpers.py` | `Utils` |
| `transformations/cutoff/*` | `Cutoff`, `Combined` |
| `transformations/parameterization/*` | `Params`, `Formula`, `FormulaText`, `References`, `FixParameters` |
| `transformations/activity_links.py` | `ActivityLinks` |
| `transformations/locations/*` | `Topology`, `Intersections`, `Lru`, `RestOfWorld`, `Markets`, `MarketGroups`, `Linking` |
| `transformations/identifying.py`, `validation.py`, `production_volumes.py`, `cleanup.py` | `Linking`, `Validation` |
| `transformations/consequential/*` | `Consequential` |
| `collection.py`, `wrapper.py`, `model.py`, `results.py`, `report.py`, `logger.py` | `Framework` |
| `filesystem.py` (cache), `io/cleanup.py` | `Storage`; once more with the bytes of the cache file and with interruptions: `Crash` |
| `filesystem.py` (safe names, output directories, files of a run, caches of several directories) | `Files` |
| `io/extract_ecospold2.py`, `io/ecospold2_meta.py` | `Extract` |
| `io/brightway2.py` | `Brightway`, `BrightwayImport` (the Brightway2 packages enter as assumptions listed there) |
| `filesystem.py` (choice and creation of directories) | `OutputDirs` |
| the functions that log table rows, once more with these rows | `ReportRows`, `VolumeTable` |
| the functions that write to the detailed log, once more with these lines, `logger.py` (`DatasetJsonFormatter`) | `DetailedLog` |
| `recalculation.py` once more with the state that failures leave behind | `RecalculateAll` |
| `io/validate_internal.py`, `io/validate_ecospold2.py` (`validate_directory`), `io/extract_ecospold2.py` once more as dictionaries | `Schema` |
| `bin/ocelot_cli.py`, `io/validate_ecospold2.py` (`validate_directory_against_xsd`) | `Cli` |
| `configuration.py` and the collections in the `__init__` files | `Pipeline` |
| scaling, `normalize_reference_production_amount`, `economic_allocation` (factors), `allocate_suppliers` (for markets and for consumers) once more with rounding | `Rounded`, `RoundedLinking` |

Not modelled: lxml and docopt (parameters of `Cli`), the HTML templates and the browser call of `report.py`, and the opening of the log files. The data of `data/` (topology, known formulas) enters as a parameter (topology)
or literally (tables in the code).

## 3. Properties, models and proofs

| id | model | proof |
|----|-------|-------|
| C01–C07 | `Uncertainty`: the distribution classes' `repair`/`rescale`/`remove`, `scale_exchange` | case analysis per distribution, field arithmetic over ℚ |
| C08–C09 | `Uncertainty`: tables and both pedigree functions | tables and arithmetic; induction over indicator lists |
| C10–C12 | `Utils` | list induction; sortedness of stable sort |
| C13 | `Cutoff` decision tree | against a declarative decision table |
| C14–C18 | `Cutoff` | finite sums over exchange lists |
| C19–C20 | `Combined` on top of the recalculation model | list induction; grouping lemmas |
| C21–C25 | `Cutoff` | list induction, text lemmas |
| C26–C27 | `Combined`: `TransformationWrapper`; items may be strings (dictionary keys) | composition; negation for C27 |
| C28–C31 | `ActivityLinks` | loop invariants over the list of links |
| C32–C37 | `Topology` with faces as `Finset`s over an arbitrary topology map; LRU cache as state machine | set algebra; invariant over call histories |
| C38, C51, C73 | `RestOfWorld` | grouping lemmas |
| C39–C45, C74–C77 | `Markets`, `MarketGroups` | loop invariants, permutation invariance |
| C46–C50, C52 | `Linking` | conservation by induction over the exchange loop with carried state |
| C53–C58, C78 | `Params`, `Formula`, `FormulaText`, `References`, `FixParameters` | induction; uniqueness of the solution of acyclic systems; rewriting of formula trees |
| C59–C62, C64, C79 | `Framework` | structural induction on nested configurations, traces |
| C63, C65 | `Storage` | invariant over histories of directory changes, extractions and clock ticks |
| C66 | `Brightway` | list induction |
| C67, C82, C83 | `Extract` | list induction; pool scheduling as permutation |
| C68–C70, C80, C81 | `Consequential` | loop invariants |
| C84–C89 | `Validation` | exact characterisation of each check |
| C71, C72, C90–C92 | `Pipeline` | the functions before `add_unique_codes` make datasets from given ones and do not link (`Proofs/PipelineStart`), those after keep codes and link only to them (`Proofs/Pipeline`), composition (`Proofs/PipelineRun`) |
| C93–C98 | `Inventory` | every function after `add_unique_codes` keeps all linear functionals of the exchanges and links only to (code, product) pairs (`Proofs/PipelineFlows`), composition and the last functions (`Proofs/PipelineInventory`) |
| C99–C102 | `Files` | text lemmas (digits, separators), induction over the functions of a run; invariant over histories of several directories |
| C103, C104 | `Schema` | schemas as an inductive type with `accepts`; record lemmas; the dictionary model agrees with the structures of `Extract` (`Proofs/SchemaAgree`) |
| C105 | `Fixes` | filters and maps; replacement from the left by strong induction on the length |
| C106 | `Burden` | a linear functional of flows is followed through all functions before codes (`PipelineBurden`, `PipelineAllocated`); each allocation method conserves its weighted sum; then C93's relation for linking |
| C107 | `Burden` | elementary flows, position by position, through the functions of the consequential model (`PipelineElementary`) |
| C108 | `Reproducible` | a relation between two runs (exchanges and suppliers permuted, everything else equal) is kept by each function after codes are given (`Shuffle*`); the functions before are equal by C56 |
| C109 | `Export` | C66, C71, C90 and C92 composed; in the consequential model only constrained exchanges keep an activity link until codes are given, and later functions link only inputs and exchanges with activity links (`Proofs/PipelineExport`) |
| C110 | `Order`, `OrderConsequential` | two runs are related by a chain of permutations of the datasets and of the exchanges in each; every function keeps the relation (`Proofs/Order*`), using unique places for dictionaries by location, and that the turns of market groups of equal rank commute; constrained exchanges are handled target by target (`Proofs/OrderConstrained`) |
| C111 | `SchemaLabels` | fields of a dictionary are checked independently; the ten labels of C13 are compared with the eight texts of the schema |
| C112 | `Progress` | conditions on the database in `Spec/Database`; each function succeeds and keeps them (`Proofs/Progress*`), the linking functions by name, type, place and product of the datasets, which no function after `add_unique_codes` changes; activities with several products are divided by economic allocation, waste treatment or recycling (`ProgressSplit`), and the conditions on places and links are those of the divided datasets; the conditions are decidable (`ProgressDecide`), so that an example can be checked |
| C113 | `ProgressConsequential` | the same conditions, without links; `Proofs/ProgressLevels` for the functions after constrained markets, `Proofs/ProgressConsequential` for those before |
| C114 | `Crash` | invariant over histories with crash points: the cache file is a prefix of the pickle that a completed call would have written (simulation by the histories of C63) |
| C115 | `Crash` | invariant over schedules of opens, writes and ends: every byte written since the last opening is right |
| C116 | `Crash` | the deleted directories are a prefix of a sorted list; sorting and filtering commute |
| C117 | `Stats` | case analysis on the repaired forms of C07; `log` is assumed to turn products into sums |
| C118 | `Intersections` | direct |
| C119 | `ConstrainedRun` | negated: the success of a run is taken apart function by function; the target of a constrained exchange keeps its place and level and ends up without a volume (`Proofs/ConstrainedRun`), every activity in a market is one of its suppliers, and the update of market volumes reads the volume of each (`Proofs/SupplierVolumes`) |
| C120, C121 | `Rounded` | any monotone, odd rounding with relative error at most 2⁻⁵³ (`Spec/Rounding`); inequalities; double precision with ties to even is shown to be one |
| C122, C123 | `Rounded`, `RoundedLinking`, `RoundedShares`, `RoundedOrder`, `RoundedWhole`, `RoundedFactors` | the relation `Near` (equal up to m roundings) is compatible with sums, products and quotients; sums in any order by induction over the tree of additions |
| C124 | `BrightwayImport` | C66 composed with the matching of environmental flows; the list of the caller is part of the state |
| C125 | `OutputDirs` | file systems as functions from paths to entries; `os.makedirs` by induction on the path; what can be made is an inductive predicate |
| C126 | `RecalculateAll` | loops with the state at the first exception, shown to agree with the loops of C56; induction on the datasets |
| C127 | `ReportRows` | each function with its rows is shown to do the same as without; rows are compared with the differences of input and output, by induction on exchanges and datasets |
| C128 | `VolumeTable` | the difference between the columns and the net volume is the sum of the gaps of the suppliers; induction on the markets, and on the order of the market groups with the invariant that rows already written stay true |
| C129 | `Spec/Units`, `Units` | a relation between a run and the run in other units (`Proofs/UnitsBase`): "same exception, or results that differ by the factors"; every function of the configurations preserves it (`UnitsSteps`, `UnitsAllocation`, `UnitsLinking`), then induction on the configuration (`UnitsRun`). Suppliers of markets are related by type of dataset, as the default volume 4321 has no unit |
| C130–C131 | `Cli` | list induction over the files; case analysis over the commands of the usage text (`Spec/Cli`), for arbitrary functions behind them |
| C132 | `Spec/Parts`, `Parts` | an invariant (`Proofs/PartsBase`: every dataset, with its exchanges, links, suppliers and codes, is on one side) that every function keeps, while its result on the part is the part of its result (`PartsStart`, `PartsLinks`, `PartsEnd`, `PartsGroups`, `PartsConsequential`); dictionaries and groups are keyed by names, which are on one side; for market groups, the order in which a part is treated is the order of the whole restricted to it; induction on the configuration (`PartsRun`) |
| C133 | `DetailedLog` | the functions once more with the lines that they write (`mapD`, `foldD`); erasing the lines gives the function, and the lines are computed by induction over the loops: for hard links an invariant that what is subtracted from each dataset is the sum over the lines so far, for relabelling an invariant over the groups and that grouping is a permutation |
| C134 | `Spec/Renaming`, `Renaming` | the relation "same exception, or the renamed result" (`Proofs/UnitsBase`), with a dataset related to its renamed copy; all 57 functions of `Step` preserve it (`Renamed.step_rel`; equality tests between datasets, exchanges and identifiers by injectivity), so every list of functions does. No assumption about the data. Assumed of the environment: evaluation order, set order and new identifiers do not look at the identifiers of activities |
| C135 | `Spec/Size`, `Size`, `SizeUncertain`, `SizeCombined` | for exchanges without uncertainty scaling is multiplication, so the dataset handed to `normalize` at the other size is the dataset at the other size (`choose_at`); the factors of economic allocation and the ratios of volume to amount are homogeneous of degree zero and minus one. The proofs are done once for any relation that `normalize` respects, and used with equality and with "up to a factor within 3e-14 of one". With uncertainty: scalings compose (C03), so the same holds, uncertainty included, for distributions in order (not uniform ones, `C03_uniform_fails`), exactly, for products told apart from one. Combined production evaluates formulas again: covered for exchanges that are plain numbers (parameters, properties and volumes may have formulas), assuming that the evaluation order does not depend on amounts of exchanges; exchanges with formulas get the value of the formula whatever their amount was |
| C136 | `Spec/Monotone`, `Monotone`, `MonotoneAllocation`, `MonotoneConsumers` | the factors of `economicFactors_inv` and the inputs of `C41_shares` are quotients; one revenue (volume) and the total grow by the same amount. For consumers: the same markets are chosen in both runs (`choose_swap`), so each input is split in the two ways described by `Outcome` |
| C137 | `Spec/Linear`, `Linear` | the parts are the factors of `economicFactors` (which sees the products only) divided by the amounts; `choose_burden`, `recycling_burden` and `C17_waste_treatment` say how the other exchanges are multiplied |
| C138 | `Spec/Grouping`, `Grouping` | revenue, true value weight and volume are additive, so all totals in `economicFactors_inv` and `C41_shares` stay the same |

Properties that the code violates are proved in negated form (for all inputs of a class, or by a concrete run of the model), next to
a `_partial` theorem with the extra hypothesis under which the claim holds.

## 4. Findings: where the code does not do what it says

Each line is a theorem about the model; `file` is where the cause is.

| property | what happens | theorem |
|---|---|---|
| C05 | rescaling a normal distribution leaves the stored mean behind, which the statistics array reads | `C05_location_stale` |
| C117 | rescaling a normal distribution also leaves the variance with pedigree uncertainty behind, from which the standard deviation of the sampler is computed | `C117_normal_stale` |
| C118 | the whole world intersects no place | `C118_global` |
| C119 | the consequential model stops with `KeyError` on databases with a constrained market as documented: the linked activity becomes a producer without production volume | `C119_stops` |
| C124 | the list given to `import_into_brightway2` is replaced by the translated one even if nothing is written: a second attempt fails with `ValueError` | `C124_again_partial` |
| C125 | if the directory named by OCELOT_OUTPUT exists but is not writeable, the run stops although the default directory could be used | `C125_failure_partial` |
| C126 | a dataset that could not be recalculated and is only listed in the report is half updated; a distribution that cannot be repaired stops the function | `C126_half_updated`, `C126_stops` |
| C127 | the table of deleted unlinked exchanges lists exchanges that are still there; the changes of the consequential system model are missing in the report, as its functions use the root logger | `C127_unlinked_not_deleted`, `C127_lost_links`, `C127_lost_levels`, `C127_lost_swaps`, `C127_lost_conflicts` |
| C128 | the table of market production volumes does not balance: market groups take the net volume of a market as original and subtract its hard links again; a hard-linked producer of the rest of the world is listed with its global volume beside the regions; hard links above the production volume are subtracted in full | `C128_twice`, `C128_unbalanced`, `C128_rest_of_world`, `C128_exceeded` |
| C129 | confidential activities get the production volume 1 and recycled content datasets a fixed one, whatever the unit, so that market shares depend on the unit in which volumes are given | `C129_false`, `C129_confidential`, `C129_recycled` |
| C130 | a file that is not well-formed XML ends the validation against the XSD, so that invalid files are not named | `C130_malformed` |
| C132 | a part of the database that uses refinery gas without selling it depends on unrelated datasets: `candidates` is left over from the exchange before | `C132_gas` |
| C133 | the lines about the inputs of a market name the product instead of the supplier (`supply_exc['name']`, markets.py:234): other suppliers, same lines | `C133_supplier_unnamed` |
| C133 | inputs are said to be linked to several markets, named after the product, even if nothing is linked since the volumes are zero (linking.py:211-226) | `C133_several` |
| C134 | one identifier is written in the source (activity_links.py:229): links to the activity that has it are dropped from any database, which changes volumes and shares of markets | `C134_removed` |
| C135 | an activity whose product is one up to 1e-15 is left alone, but normalised when it is described at twice the size (utils.py:228-243): the results are not exactly equal | `C135_exact_false` |
| C136 | a higher price of a product with a true value relation raises the shares of the other products with one, too (economic.py:41-51) | `C136_price_shared` |
| C138 | a market with a single supplier without production volume gets everything from it; if the same supplier is described as two, the market gets nothing (`C138_zero`) |
| C131 | `ocelot-cli --list` raises a ValueError; the exit status of `validate` and `xsd` is zero also if files are invalid | `C131_list`, `C131_validation_status` |
| C06 | repairing some lognormals twice changes them twice | `C06_lognormal_not_idempotent` |
| C09 | extracted pedigree matrices lack a key that the variance function reads: `KeyError` | `C09_extracted_matrix_fails` |
| C82 | extraction stores the matrix inside the uncertainty, all other functions look beside it, so that it is never used | `C82_never_found`, `C82_adjustment_does_nothing` |
| C14–C16 | an allocatable product of amount zero passes validation and then stops economic allocation with `ZeroProduction`; a revenue sum of zero gives NaN; negative true values are accepted | hypotheses of `C14_…`, `C16_…` |
| C22 | `adjust_market_signs` raises `KeyError` for a market whose reference product is not classified | `C22_…` |
| C25 | the renaming of recycled content removes an inner occurrence of the suffix as well | `C25_…` |
| C26 | an allocatable byproduct of amount zero with a formula is alive after recalculation, and is left over | `C26_live_byproduct_after_recalculation` |
| C27 | `constrained_market_allocation` returns a dictionary instead of a list; cut-off allocation never returns on data with a constrained market | `C27_constrained_market_never_returns` |
| C39 | of two suppliers of the same product in `RoW` the earlier one is dropped | `C39_duplicate_row_dropped` |
| C45 | the `RoW` market can be missing from the global market group, or be chosen together with a group that overlaps it | `C45_row_missing`, `C45_row_overlap` |
| C46 | without a market for refinery gas a variable of the previous iteration is used: wrong product, or unbound | `C46_wrong_product`, `C46_unbound` |
| C47 | a `RoW` market and a market group that overlaps it can both supply one consumer | `C47_row_overlap` |
| C48 | the deletion of unlinked inputs tests the code of the dataset instead of the exchange, and deletes nothing | `C48_deletes_nothing`, `C48_unlinked_remain` |
| C49 | the identifying text is made without separators, different datasets can be reported as identical | `C49_false_alarm` |
| C51 | equal copies of an empty `RoW` dataset are all removed, even if nothing is left | `C51_duplicates_all_removed` |
| C53 | making names lower case can merge variables, and the name made for a reference may be taken | `C53_lowercase_merges`, `C53_reference_name_taken` |
| C55 | `if` with a `power` inside is cut at the wrong semicolon | `C55_power_inside` |
| C58 | a reserved word is also replaced inside longer names | `C58_longer_identifier` |
| C78 | `power(a;b)*(c)` and a repeated power clause raise an exception | `C78_bracket_crash`, `C78_repeated_crash` |
| C61 | the default saves every thousandth result, the documentation says every fifth | `C61_default` |
| C62 | a configuration with a plain list inside passes validation and then raises `TypeError` | `C62_nested` |
| C79 | log handlers are never removed, an earlier run's file receives the records of later runs | `C79_files`, `C79_false` |
| C63 | the cache misses changes of hidden files and changes during extraction; an emptied directory raises `ValueError` | `C63_hidden`, `C63_during`, `C63_emptied` |
| C114 | the cache is written in place: if this is interrupted, the broken file counts as fresh, and all cached extractions fail until a source file changes | `C114_stuck` |
| C115 | two programs that cache different states of a directory at the same time can leave a mixture | `C115_mixture` |
| C116 | a directory whose deletion was interrupted counts as new and stays another week | `C116_torso` |
| C65 | an old link to a directory stops the clean-up halfway | `C65_link` |
| C70 | all activity links of ordinary exchanges are deleted, not only those to constrained markets | `C70_all_links_deleted` |
| C80 | the new reference product of a constrained market has no production volume | `C80_no_volume` |
| C81 | `cleanup_technology_levels` is in no configuration; a market with undefined suppliers only stops the run | `C81_undefined_stops` |
| C90 | global datasets without production are deleted after they were linked, their consumers keep a dangling link | `C90_dangling` |
| C109 | the consequential configuration does not call `add_reference_product_codes`, so that its results cannot be exported; unlinked inputs of the cut-off model make the export fail | `C109_consequential`, `C109_unlinked` |
| C110 | the order of the files changes results: recycled content is a copy of the last dataset with the waste, of several activities in the rest of the world only the first can be deleted, and refinery gas without a market takes what the previous exchange left; of two constrained exchanges that lead to one activity, the last one decides what it produces | `C110_recyclable`, `C110_empty_row`, `C110_gas`, `C110_targets`, `C110_target_of_target` |
| C111 | the internal schema knows two of the ten labels of allocation methods | `C111_rejected` |
| C112 | the bounds of a uniform distribution of a waste byproduct are not exchanged when its sign is, so that scaling it later fails | `C112_uniform_waste_fails` |
| C46, C93 | of two equal inputs of refinery gas without a market one can be lost | `C46_gas_lost`, `C93_gas_lost` |
| C101 | following a file path with a directory separator stops the run (`OSError`); datasets whose path contains the text are followed too | `C101_follow_path`, `C101_other_file` |
| C103 | gamma distributions (with the minimum that ecospold2 requires), exchanges in input groups 1–3 and output groups 3 and 5 fail internal validation; without access restriction extraction fails | `C103_gamma`, `C103_groups`, `C103_access` |
| C104 | of datasets with the same error message only the last is reported | `C104_report`, `C104_same_message` |
| C105 | the replacement for 152 million pounds is three tonnes too much | `C105_pounds` |
| C95, C98 | without a market for refinery gas, a complete run links inputs of it to the market of another product | `C95_wrong_product`, `C98_wrong_product` |

Observed while modelling, without a theorem of its own: an empty configuration means the cut-off model; an unknown
configuration name recurses without end; the suppliers list of a market is deleted when one of its own inputs is split between
markets; flipping byproducts into inputs leaves their uncertainty unchanged; the two
collections `link_markets_by_pv` and `link_markets_by_pv_ecoinvent_row` are equal (C72); the consequential configuration does not
give codes to reference products; market groups get no suppliers as inputs in the consequential model; a keyboard interrupt deletes the
output directory.
