#!/usr/bin/env python3
"""Writes /verif/properties.jsonl (kept as a script only so that the list stays easy to edit)."""
import json, os
P = []
def p(id, title, statement, quantifier, why, anchors):
    P.append(dict(id=id, title=title, statement=statement, quantifier=quantifier,
                  why_tests_cant=why, anchors=anchors))
T = "ocelot/transformations/"
U = T + "uncertainty/"
L = T + "locations/"
K = T + "cutoff/"
PA = T + "parameterization/"
Q = T + "consequential/"

# ---------------------------------------------------------------- uncertainty
p("C01", "Scaling multiplies the amount, whatever the distribution",
  "Whenever scale_exchange(exc, f) returns, the returned exchange's amount is exactly amount*f and every non-uncertainty field (name, id, type, unit, classification, links, production volume, properties) is unchanged; with f == 1 the exchange is returned untouched; an unsupported distribution raises UnsupportedDistribution for every f != 1.",
  "every exchange, every supported and unsupported distribution with any parameter values, every rational factor",
  "infinitely many amounts, factors and parameter combinations; five distribution-specific code paths",
  [U+"__init__.py:scale_exchange", U+"distributions.py:*.rescale"])
p("C02", "Scaling keeps bounded distributions well-formed",
  "For a uniform or triangular exchange whose bounds are ordered and contain the amount, scaling never raises, and afterwards either the uncertainty is gone (only when the interval is a single point) or the bounds are the image of the old interval, are ordered and contain the new amount (mode = amount for triangular) - also for negative factors.",
  "every well-formed uniform/triangular exchange and every factor, including zero and negatives",
  "depends on sign and magnitude of arbitrary rationals, not on a sample",
  [U+"distributions.py:Uniform.rescale", U+"distributions.py:Triangular.rescale"])
p("C03", "Scaling composes",
  "Scaling by a and then by b gives the same exchange as scaling once by a*b (a, b nonzero), for exchanges without uncertainty, with undefined, triangular, normal and lognormal uncertainty in repaired form; in particular flipping the sign twice is the identity.",
  "every repaired exchange, every pair of nonzero factors",
  "an algebraic law over all rationals",
  [U+"__init__.py:scale_exchange", U+"distributions.py"])
p("C04", "Lognormal stays consistent with its amount",
  "After scaling a lognormal exchange by a nonzero factor, mean = |amount|, mu = log(mean) and the negative flag is toggled exactly when the factor is negative; after repair, the negative flag is true exactly when the amount is negative, mean = |amount|; this sign agreement is preserved by any sequence of scalings.",
  "every lognormal exchange, every sequence of nonzero factors",
  "invariant over all operation sequences",
  [U+"distributions.py:Lognormal.rescale", U+"distributions.py:Lognormal.repair"])
p("C05", "Normal distribution: relative spread preserved and location follows the amount",
  "Scaling a normal exchange multiplies its variance by factor^2 (so sigma/mu is preserved) and the location parameter handed to the sampler equals the new amount.",
  "every normal exchange with nonzero amount, every factor",
  "an equation over all rationals",
  [U+"distributions.py:Normal.rescale", U+"distributions.py:Normal.to_stats_arrays"])
p("C06", "Repair is idempotent",
  "Repairing an uncertainty distribution twice gives the same object as repairing it once, for every distribution.",
  "every object with an uncertainty dictionary",
  "boundary cases of arbitrary real parameters (e.g. variance exactly 1 or e)",
  [U+"distributions.py:*.repair", PA+"uncertainty.py", PA+"recalculation.py:recalculate"])
p("C07", "Repair never changes the amount and leaves a valid distribution",
  "If repair returns, amount is unchanged and the remaining distribution is valid: uniform/triangular bounds ordered and containing the amount, triangular mode = amount, lognormal mean = |amount| > 0; repair raises only for a uniform distribution whose amount is outside its bounds (or missing fields).",
  "every object with an uncertainty dictionary",
  "all rational parameter values",
  [U+"distributions.py:*.repair"])
p("C08", "Pedigree time adjustment is monotone and never optimistic",
  "adjust_pedigree_matrix_time never lowers the temporal-correlation score of a score in 1..5, keeps it in 1..5, leaves it alone when the year difference is zero, is monotone in the year difference and in the current score, and changes nothing else.",
  "every current score 1..5, every year difference (unbounded)",
  "year difference is unbounded",
  [U+"pedigree.py:adjust_pedigree_matrix_time"])
p("C09", "Pedigree variance is non-negative, bounded and monotone; works on extracted matrices",
  "For a matrix with scores in 1..5, get_pedigree_variance is >= 0, is 0 when all scores are 1, and does not decrease when any score is raised; it is defined on every pedigree matrix that extraction produces.",
  "every pedigree matrix over the known indicator names",
  "all combinations of indicators and scores, any subset of indicators",
  [U+"pedigree.py:get_pedigree_variance", "ocelot/io/ecospold2_meta.py:PEDIGREE_LABELS"])

# ---------------------------------------------------------------- utils
p("C10", "Normalisation makes the reference product +1 or -1 and keeps proportions",
  "normalize_reference_production_amount returns one dataset in which the reference product amount has absolute value 1 (or was already within the 1e-14 tolerance and nothing was changed), its sign is kept, and every exchange amount is multiplied by the same positive factor; it raises exactly for no / several reference products, a zero amount, or an unscalable exchange; applying it twice equals applying it once.",
  "every dataset",
  "all datasets and amounts; idempotence is a universally quantified law",
  [T+"utils.py:normalize_reference_production_amount", T+"utils.py:get_single_reference_product"])
p("C11", "Choosing a reference product yields a single-output dataset",
  "choose_reference_product_exchange(ds, exc, f) returns a dataset with exactly one reference product exchange (the chosen one, amount +-1 up to tolerance, no uncertainty, no classification), no allocatable byproducts, every other production exchange turned into a zero-amount dropped product without formula/production volume/uncertainty, and every non-production exchange amount multiplied by f/|exc amount|; the input dataset is not modified; a zero-amount choice raises ZeroProduction.",
  "every dataset, chosen exchange and factor",
  "all multi-output datasets",
  [T+"utils.py:choose_reference_product_exchange", T+"utils.py:nonreference_product"])
p("C12", "Production-volume ratio is the extreme one",
  "get_biggest_pv_to_exchange_ratio returns a ratio pv/amount of some nonzero reference product whose absolute value is at least that of every other; it raises ZeroProduction exactly when all reference product amounts are zero; its absolute value does not depend on the order of the exchanges.",
  "every dataset, every reordering of its exchanges",
  "all orders and values",
  [T+"utils.py:get_biggest_pv_to_exchange_ratio"])

# ---------------------------------------------------------------- cutoff
p("C13", "Allocation method choice is total and follows the documented decision tree",
  "choose_allocation_method returns one of the ten labels in ALLOCATION_METHODS, each exactly under the documented conditions; its internal assertion never fires, and the only possible failure is a KeyError for a byproduct without classification (unless both searches for allocatable products end before it).",
  "every dataset",
  "combinations of exchange types, signs and classifications over unbounded lists",
  [K+"allocation.py:choose_allocation_method", K+"allocation.py:ALLOCATION_METHODS"])
p("C14", "Economic allocation factors are a partition of unity",
  "When economic_allocation accepts a dataset with positive total revenue (and non-negative true values with a positive total if any exchange has one), the allocation factors are all >= 0 and sum to exactly 1.",
  "every valid multi-output dataset, with any mixture of true-value and price-only products",
  "arbitrary lists of rational prices, amounts, true values",
  [K+"economic.py:economic_allocation", T+"utils.py:allocatable_production_as_dataframe"])
p("C15", "Economic allocation conserves every burden",
  "For each non-production exchange of the input, the sum over the output datasets of (its amount in the output) x (original amount of that output's product / normalised amount) equals its original amount: nothing is lost or double counted.",
  "every dataset accepted by economic_allocation",
  "a conservation law over all datasets",
  [K+"economic.py:economic_allocation", K+"utils.py:apply_allocation_factors", T+"utils.py:choose_reference_product_exchange"])
p("C16", "True value only redistributes within the true-value products",
  "Products without a true value relation keep factor revenue/total revenue; the true-value products together keep their joint revenue share, and within that group factors are proportional to true value x amount.",
  "every valid dataset",
  "arbitrary mixtures of products",
  [K+"economic.py:economic_allocation"])
p("C17", "Waste treatment: all burdens stay with the treatment, byproducts are free",
  "waste_treatment_allocation returns 1 + (number of allocatable byproducts) datasets: the first carries every non-production exchange scaled only by normalisation and has the waste as its negative reference product; each further one consists of exactly one exchange, its byproduct, with amount +-1; it raises InvalidExchange for a non-waste or non-negative reference product.",
  "every dataset",
  "arbitrary numbers of byproducts and exchanges",
  [K+"wastes.py:waste_treatment_allocation", K+"validation.py:valid_waste_treatment_activity"])
p("C18", "Recycling allocation turns the treated material into a positive input and conserves burdens",
  "recycling_allocation on a dataset with a single negative reference product yields datasets whose products are exactly the allocatable byproducts; the recycled material appears in every output as a technosphere input of non-negative amount, and the burden conservation law of C15 holds including for that input.",
  "every dataset accepted",
  "all datasets",
  [K+"wastes.py:recycling_allocation", K+"validation.py:valid_recycling_activity"])
p("C19", "Combined production subdivides into single-output datasets",
  "combined_production returns one dataset per nonzero reference product, in order; each has that product as its only reference product, with its amount unchanged by the recalculation, and all other reference products turned into zero-amount dropped products.",
  "every dataset with distinct reference product exchanges and unique variable names, every formula set",
  "all parameterised datasets",
  [K+"combined.py:combined_production", PA+"recalculation.py:recalculate"])
p("C20", "Merging byproduct datasets adds up their exchanges",
  "merge_byproducts yields exactly one dataset per (activity name, product tuple) in first-appearance order, whose amount for each exchange id is the sum over the merged datasets; the grand total over datasets of each exchange id is conserved; it raises InvalidExchange if an allocatable byproduct remains.",
  "every list of datasets whose exchange ids are unique per dataset and common within a group",
  "all groupings",
  [K+"combined.py:merge_byproducts", K+"combined.py:add_exchanges"])
p("C21", "Flipping non-allocatable byproducts changes nothing in the technosphere balance",
  "flip_non_allocatable_byproducts leaves no waste/recyclable byproduct, keeps every exchange (same order, names), keeps the signed net output (outputs minus inputs) of every flow name, leaves all other exchanges untouched and is idempotent.",
  "every dataset list",
  "all datasets",
  [K+"wastes.py:flip_non_allocatable_byproducts"])
p("C22", "Non-waste markets end up with non-negative production",
  "After adjust_market_signs_for_allocatable_products every market activity whose reference product is not waste has a non-negative reference product amount, and datasets that are not such markets are unchanged; absolute amounts of all exchanges are unchanged.",
  "every dataset list",
  "all sign patterns over unbounded exchange lists",
  [K+"markets.py:adjust_market_signs_for_allocatable_products"])
p("C23", "Cut-off clean-up removes exactly what it documents",
  "remove_consequential_exchanges keeps exactly the exchanges without a consequential=1 property in order; drop_rp_activity_links and drop_zero_amount_activity_links delete activity links exactly from reference/dropped products resp. zero-amount exchanges and change nothing else; all are idempotent and commute.",
  "every dataset list",
  "universal laws over lists",
  [K+"cleanup.py"])
p("C24", "Every recyclable byproduct gets exactly one burden-free recycled-content dataset",
  "After handle_waste_outputs, for every recyclable byproduct name there is exactly one new dataset with that name, located in GLO, whose only exchange is a reference product of amount 1 with that name; no other dataset is added, existing datasets keep their order, and all recyclable byproduct names carry the Recycled Content suffix. The new dataset carries the identifiers, dates, technology level and authorship of the dataset that produces the byproduct, the last one in the input if there are several.",
  "every dataset list",
  "arbitrary multiplicities of shared byproduct names",
  [K+"wastes.py:rename_recyclable_content_exchanges", K+"wastes.py:create_recycled_content_datasets"])
p("C25", "Recycled-content renaming round-trips",
  "Adding the Recycled Content suffix to a flow name and later removing it with rename_recycled_content_products_after_linking restores the original name, for every name that does not itself contain the suffix; names not ending in the suffix are untouched.",
  "every string",
  "string overlap cases over all names",
  [K+"wastes.py:rename_recycled_content_products_after_linking", K+"__init__.py:RC_STRING"])
p("C26", "Cut-off allocation leaves only single-output datasets",
  "If cutoff_allocation succeeds on datasets whose reference products are all nonzero, every resulting dataset has exactly one reference product and no nonzero allocatable byproduct, and carries no allocation method label.",
  "every dataset list",
  "all mixtures of allocation methods",
  [K+"allocation.py:cutoff_allocation", "ocelot/wrapper.py"])
p("C27", "Constrained markets survive cut-off allocation",
  "A dataset labelled 'constrained market' is returned by cutoff_allocation as a dataset with its conditional exchanges zeroed.",
  "every dataset list with a constrained market",
  "needs the composition of the wrapper with every later allocation function",
  [K+"markets.py:constrained_market_allocation", "ocelot/wrapper.py:TransformationWrapper.__call__", K+"allocation.py:cutoff_allocation"])

# ---------------------------------------------------------------- activity links
p("C28", "Activity-link validation is exact",
  "check_activity_link_validity succeeds exactly when every activity link points to a dataset in the data which has exactly one production exchange with the link's flow name; otherwise it raises UnresolvableActivityLink; it never changes the data.",
  "every dataset list in which byproducts are classified, with or without repeated ids",
  "all link graphs",
  [T+"activity_links.py:check_activity_link_validity"])
p("C29", "Hard-linked volumes add up, in any order",
  "After add_hard_linked_production_volumes each targeted production exchange's subtracted volume is its previous value plus the sum over all non-self links to it of link amount x (biggest pv/amount ratio of the linking dataset); nothing else changes; after a successful validity check on data with unique ids the lookup and the assertion cannot fail; the result does not depend on the order in which links are processed.",
  "every link graph, every order of links",
  "sum over unbounded graphs and all orders",
  [T+"activity_links.py:add_hard_linked_production_volumes"])
p("C30", "Transforming activity volumes are reduced to at least zero",
  "update_transforming_activity_production_volumes sets amount to max(amount - subtracted, 0) and stores the original amount, exactly for production exchanges of transforming activities that have a subtracted volume; nothing else changes and no amount becomes negative.",
  "every dataset list",
  "all values",
  [T+"activity_links.py:update_transforming_activity_production_volumes"])
p("C31", "Parent links are redirected to the child and nothing else",
  "After update_activity_link_parent_child no non-production exchange links to its dataset's parent (unless the parent id is the dataset's own id), links to other datasets are unchanged, and a second application changes nothing.",
  "every dataset list",
  "universal law",
  [T+"activity_links.py:update_activity_link_parent_child"])

# ---------------------------------------------------------------- topology
p("C32", "Topological containment means face inclusion",
  "For named locations contains(parent, child, subtract) is True exactly when every face of the child is a face of the parent and of none of the subtracted places; it is reflexive and transitive without subtract; every location is within GLO; RoW obeys the documented rules (RoW vs RoW is False, GLO contains RoW only without subtract, an empty resolved set is never contained).",
  "every topology (any location-to-faces map), all argument combinations",
  "any face data, any subtract list",
  [L+"_topology.py:Topology.contains", L+"_topology.py:Topology._contains"])
p("C33", "contained() and contains() agree",
  "A named location with at least one face is in contained(parent, subtract, resolved_row) exactly when contains(parent, it, subtract, resolved_row) is True, and exclude_self removes exactly the location itself.",
  "every topology and all arguments",
  "two separately written algorithms over arbitrary sets",
  [L+"_topology.py:Topology._contained", L+"_topology.py:Topology._contains"])
p("C34", "Rest-of-world is the exact complement",
  "resolve_row(others) is disjoint from every location in others and together with them covers GLO; adding locations only shrinks it; order and duplicates do not matter; RoW in the list is ignored.",
  "every topology and nonempty list",
  "set law over all inputs",
  [L+"_topology.py:Topology.resolve_row"])
p("C35", "Overlap check is exact",
  "overlaps(group) is False exactly when the faces of all entries (counted with multiplicity) are pairwise disjoint; no_overlaps additionally rejects GLO together with anything else.",
  "every list of locations",
  "inclusion-exclusion over arbitrary sets",
  [L+"_topology.py:Topology.overlaps", L+"validation.py:no_overlaps"])
p("C36", "Location ordering is deterministic, largest first",
  "ordered_dependencies returns each distinct location once, ordered by decreasing size (ties by decreasing name), independent of the order and multiplicity of the datasets; a location strictly inside another comes after it.",
  "every list of datasets, every permutation",
  "all permutations",
  [L+"_topology.py:Topology.ordered_dependencies"])
p("C37", "Memoisation is invisible",
  "For every history of calls, the LRU-cached topology methods return what the uncached computation returns, whatever was evicted, and the cache never exceeds its maximum size.",
  "every call history, every cache size",
  "unbounded call histories",
  [L+"_topology.py:functools.lru_cache"])

# ---------------------------------------------------------------- locations
p("C38", "Relabelling GLO to RoW keeps total production volume",
  "relabel_global_to_row turns the single GLO dataset of every multi-member non-market-group activity group into RoW, sets its production volume to max(global - sum of the regions' original volumes, 0), keeps the old value as global amount, touches nothing else, keeps dataset order, raises MultipleGlobalDatasets when a group has two GLO datasets, and is idempotent; when the global volume covers the regions the group total equals the original global volume.",
  "every dataset list",
  "arbitrary groups",
  [L+"rest_of_world.py:relabel_global_to_row"])
p("C39", "Markets get exactly the suppliers inside them",
  "After add_suppliers_to_markets a market lists exactly one supplier entry for each dataset of the supplying type with the same reference product whose region (RoW resolved against the same-named suppliers) lies inside the market's region (RoW resolved against the competing markets).",
  "every topology and dataset list accepted",
  "arbitrary geographies",
  [L+"markets.py:add_suppliers_to_markets", L+"markets.py:apportion_market_suppliers_to_consumers"])
p("C40", "No supplier feeds two markets of the same product",
  "When add_suppliers_to_markets succeeds for markets, no supplying activity with a nonempty region is listed by two different markets of one product.",
  "every topology and dataset list accepted",
  "depends on disjointness of arbitrary region sets",
  [L+"markets.py:apportion_market_suppliers_to_consumers", L+"validation.py:no_overlaps"])
p("C41", "Supplier shares add up to the market's production",
  "When total supplier volume is nonzero, allocate_suppliers appends one technosphere input per supplier with nonzero volume, of amount volume/total x production amount, linked to the supplier's code; the appended amounts sum exactly to the production amount; a single zero-volume supplier receives everything; several zero-volume suppliers leave the dataset unchanged; all previous exchanges are kept.",
  "every market and supplier list",
  "conservation over arbitrary lists",
  [L+"markets.py:allocate_suppliers", L+"markets.py:allocate_all_market_suppliers"])
p("C42", "Supplier order is irrelevant",
  "Permuting the supplier list of a market only permutes the created input exchanges (the supplier order comes from iterating a Python set, so it varies from run to run).",
  "every permutation of every supplier list",
  "all permutations",
  [L+"markets.py:allocate_suppliers", L+"markets.py:apportion_market_suppliers_to_consumers"])
p("C43", "Market production volume is the net supply, never negative",
  "After update_market_production_volumes every market's production volume is max(sum of supplier volumes - volume subtracted by activity links, 0), its original total is the sum of the suppliers' original volumes, and nothing else changes.",
  "every dataset list with supplier lists",
  "arbitrary lists",
  [L+"markets.py:update_market_production_volumes"])
p("C44", "Nested market group volumes are mutually consistent",
  "After update_market_production_volumes(kind='market group'), whenever every market group supplying another one is ordered after it by size, each supplier entry that refers to a market group shows exactly that group's final production volume, and each group's volume is the net sum of its final supplier entries.",
  "every acyclic nesting of market groups of any depth",
  "recursion of unbounded depth; order dependence",
  [L+"markets.py:update_market_production_volumes", L+"market_groups.py:link_market_group_suppliers"])
p("C45", "Market group suppliers do not overlap and lie inside the group",
  "After link_market_group_suppliers the suppliers of a market group have the same product, lie within the group's region, are pairwise disjoint in space, do not include the group itself, and every candidate market inside the group is covered by or clashes with a chosen supplier (the choice is maximal).",
  "every topology and dataset list accepted",
  "greedy algorithm over arbitrary geographies",
  [L+"market_groups.py:link_market_group_suppliers"])
p("C46", "Consumer linking conserves inputs and links to the right product",
  "If link_consumers_to_markets succeeds, for each dataset and flow name the total technosphere input amount is unchanged, exchanges already linked and non-technosphere exchanges are untouched, and each newly set code is the code of a market or market group whose reference product is that flow.",
  "every dataset list",
  "conservation over arbitrary data; loop-carried state",
  [L+"linking.py:link_consumers_to_markets", L+"markets.py:allocate_suppliers"])
p("C47", "Consumer linking is geographically sound",
  "Markets or market groups chosen inside a consumer's region are pairwise disjoint and contained in it; if none is inside, the one chosen contains the consumer and no candidate containing the consumer is smaller.",
  "every topology and dataset list",
  "arbitrary geographies",
  [L+"linking.py:link_consumers_to_markets"])
p("C48", "Unlinked inputs are removed at the end",
  "After log_and_delete_unlinked_exchanges no technosphere input without a code remains.",
  "every dataset list",
  "universal over data",
  [L+"linking.py:log_and_delete_unlinked_exchanges"])
p("C49", "Codes are unique",
  "If add_unique_codes succeeds, all dataset codes are pairwise different and every code is the hash of the dataset's identifying attributes; it raises IdenticalDatasets exactly when two datasets have the same lower-cased concatenated attributes (assuming no hash collision); two datasets that differ in some attribute are not rejected.",
  "every dataset list, every hash function",
  "all pairs of datasets",
  [T+"identifying.py:add_unique_codes", T+"utils.py:activity_hash"])
p("C50", "Activity links become codes of the linked activity",
  "actualize_activity_links sets code on exactly those activity links for which the linked id has exactly one dataset with that reference product, to that dataset's code; add_reference_product_codes gives every reference product its own dataset's code.",
  "every dataset list",
  "all link graphs",
  [L+"linking.py:actualize_activity_links", L+"linking.py:add_reference_product_codes"])
p("C51", "Only empty RoW datasets are purged",
  "delete_global_with_zero_pv_when_regional_present removes only RoW datasets of the given kind with zero or unknown original production volume whose product has at least one other dataset of that kind, keeps all others in order, and leaves at least one dataset of that kind for each product.",
  "every dataset list",
  "all groupings",
  [L+"markets.py:delete_global_with_zero_pv_when_regional_present"])
p("C52", "Recycled-content inputs are linked to the unique recycled-content producer",
  "link_consumers_to_recycled_content_activities sets a code on exactly those unlinked technosphere inputs whose flow name is the reference product of exactly one recycled-content transforming activity, namely that activity's code, and changes nothing else.",
  "every dataset list",
  "all data",
  [L+"linking.py:link_consumers_to_recycled_content_activities"])

# ---------------------------------------------------------------- parameterization
p("C53", "Variable names stay unique",
  "variable_names_are_unique accepts exactly the datasets in which no variable name occurs twice among exchanges, volumes, properties and parameters; uniqueness still holds after fix_ecoinvent_parameters.",
  "every dataset list",
  "all datasets",
  [PA+"validation.py:variable_names_are_unique", PA+"python_compatibility.py:lowercase_all_parameters"])
p("C54", "Moving production-volume variables keeps all named parameters",
  "create_pv_parameters leaves no variable or formula in any production volume, keeps the multiset of (variable, amount, formula) of all named parameters, and leaves exchange and volume amounts unchanged.",
  "every dataset",
  "all datasets",
  [PA+"production_volumes.py:create_pv_parameters"])
p("C55", "Rewriting if(a;b;c) terminates and preserves meaning",
  "The nested-if rewriter terminates on every string, returns a string without 'if(' or fails, and on every well-formed (arbitrarily nested) ecoinvent if-expression produces exactly the python conditional expression of the same tree.",
  "every string; every formula tree of any depth",
  "unbounded nesting; termination",
  [PA+"python_compatibility.py:find_replace_nested_if_statements", PA+"python_compatibility.py:find_if_boundaries", PA+"python_compatibility.py:replace_if_statement"])
p("C56", "Recalculation solves the parameter equations, independent of evaluation order",
  "recalculate gives every parameterised object the value of its formula under the final values of all named parameters (zero on division by zero), the result is the same for every admissible evaluation order, objects without formula keep their amounts, and recalculating again changes no amount, variable or formula (an uncertainty may be repaired once more, see C06; without lognormal distributions nothing changes at all).",
  "every acyclic formula system with unique names, every valid evaluation order",
  "all systems and all orders",
  [PA+"recalculation.py:recalculate", PA+"recalculation.py:TolerantParameterSet.evaluate"])
p("C57", "Implicit references resolve to the referenced object",
  "replace_implicit_references gives a referenced exchange or parameter a variable exactly when it had none, never changes an existing variable name, and two references to the same object are replaced by the same variable.",
  "every dataset",
  "all reference patterns",
  [PA+"implicit_references.py:replace_implicit_references"])
p("C58", "Reserved-word repair does not touch longer identifiers",
  "check_and_fix_formula uppercases reserved words only where they are whole identifiers.",
  "every formula",
  "all strings",
  [PA+"python_compatibility.py:check_and_fix_formula"])

# ---------------------------------------------------------------- framework
p("C59", "Collections flatten and compose",
  "A Collection built from arbitrarily nested functions, lists and Collections holds the leaf functions in left-to-right order, and calling it is applying them one after another; nesting does not matter; insert, delete and set behave as on the flat list.",
  "every nesting of any depth, every data value",
  "unbounded nesting",
  ["ocelot/collection.py:Collection", "ocelot/collection.py:unwrap_functions"])
p("C60", "TransformationWrapper is an order-preserving filtered flat-map",
  "A wrapped function is applied to exactly the datasets passing the filter, its results replace the dataset in place, all other datasets pass through unchanged and in order; the first failing dataset aborts the whole step.",
  "every function, filter and dataset list",
  "all inputs",
  ["ocelot/wrapper.py:TransformationWrapper"])
p("C61", "Save strategies select exactly the documented indices",
  "SaveStrategy('a:b:c') answers True exactly for a, a+c, ... <= b; SaveStrategy('a:b') for a..b inclusive; SaveStrategy(n) for multiples of n and is rejected for n < 1; the default is every five functions.",
  "every strategy string of integers and every index",
  "unbounded integers",
  ["ocelot/results.py:SaveStrategy"])
p("C62", "A model run applies the configured functions in order, once each",
  "For any configuration accepted by validate_configuration, system_model applies its leaf functions in order to the data, numbers them 0,1,2,..., logs a start and an end record for each with the right dataset counts, saves an intermediate result exactly at the indices chosen by the save strategy, and returns the final data; a failing function stops the run before any later function starts.",
  "every configuration (flat or nested), every save strategy, every failure point",
  "all configurations and failure points",
  ["ocelot/model.py:system_model", "ocelot/model.py:apply_transformation", "ocelot/utils.py:validate_configuration"])
p("C63", "The extraction cache never serves stale data",
  "For every history of file creations, modifications, deletions and extractions with a clock that advances between operations, extract_directory(use_cache=True) returns the same data as an uncached extraction of the current files.",
  "every history of file operations and extractions",
  "unbounded histories",
  ["ocelot/io/__init__.py:extract_directory", "ocelot/filesystem.py:check_cache_directory"])
p("C64", "Every run's log can be turned into a report",
  "For every log written by a complete model run whose table/list entries match the function's declaration, report generation succeeds, lists the functions in execution order and assigns each table row to the function that logged it.",
  "every run log",
  "unbounded logs",
  ["ocelot/report.py:HTMLReport.read_log", "ocelot/report.py:HTMLReport.handle_line", "ocelot/report.py:jsonize"])
p("C65", "Clean-up deletes only old run directories",
  "cleanup_data_directory removes exactly the directories whose creation time is more than one week before now and never a file.",
  "every directory content and time",
  "all directory states",
  ["ocelot/io/cleanup.py:cleanup_data_directory"])
p("C66", "Brightway2 export preserves the inventory matrix",
  "translate_activity keeps, for each linked code, the signed technosphere net (production positive, inputs negative) of the dataset and for each environment flow the amount; zero-amount exchanges are dropped; unlinked refinery gas is dropped; dropped products with zero amount never cause an error.",
  "every linked dataset",
  "all datasets",
  ["ocelot/io/brightway2.py:Brightway2Converter"])
p("C67", "Extraction order and conditional flag",
  "extract_ecospold2_directory returns the datasets of all .spold files (case-insensitive) in listing order, the same with and without multiprocessing; an exchange is flagged conditional exactly when it is a negative byproduct with an activity link in a market activity; production volumes are extracted exactly for reference products and byproducts.",
  "every directory and every XML content",
  "all inputs",
  ["ocelot/io/extract_ecospold2.py"])

# ---------------------------------------------------------------- consequential
p("C68", "Only the best technology supplies a consequential market",
  "After prune_suppliers_by_technology_level every market with suppliers keeps a nonempty sublist, in order, all of one technology level, and no removed supplier had a better level; it fails exactly when a market has suppliers but none with a level in the hierarchy.",
  "every dataset list",
  "all supplier lists",
  [Q+"market_linking.py:prune_suppliers_by_technology_level"])
p("C69", "Constrained-market handling keeps product balances and single outputs",
  "handle_constrained_markets turns each conditional byproduct into an input and exchanges the roles of the target's reference product and the matching input; for every dataset and flow the signed net output is unchanged, and the target still has exactly one reference product.",
  "every dataset list in which conditional exchanges are byproducts, as extraction makes them",
  "all link graphs",
  [Q+"constrained_markets.py:handle_constrained_markets"])
p("C70", "Byproduct substitution check is exact; activity links to constrained markets are removed",
  "ensure_byproducts_have_alternative_production succeeds exactly when every byproduct name is some dataset's reference product; delete_activity_links_to_constrained_markets deletes exactly the activity links that point to constrained activities.",
  "every dataset list",
  "all data",
  [Q+"byproducts.py", Q+"constrained_markets.py:delete_activity_links_to_constrained_markets"])

# ---------------------------------------------------------------- pipeline
p("C71", "The cut-off system model returns linked single-output datasets",
  "If the cut-off configuration runs to completion, every returned dataset has exactly one reference product, its amount is +1 or -1 (up to the 1e-14 tolerance), all dataset codes are unique and every reference product carries its dataset's code.",
  "every input dataset list",
  "composition of some fifty functions over all inputs",
  ["ocelot/configuration.py:cutoff_config", "ocelot/model.py:system_model"])
p("C72", "The two cut-off configurations are the same model",
  "Running 'cutoff' and 'cutoff_ecoinvent_row' on the same data gives the same result, and every configured function list is flat, nonempty and callable.",
  "every input",
  "all inputs",
  ["ocelot/configuration.py", L+"__init__.py"])
p("C73", "Dropping empty RoW markets removes nothing else",
  "drop_zero_pv_row_datasets removes exactly the market activities located in RoW whose production volume is known and zero, and keeps all others in order.",
  "every dataset list",
  "all dataset lists",
  [L+"rest_of_world.py:drop_zero_pv_row_datasets"])

p("C74", "Markets get their recycled content suppliers",
  "After add_recycled_content_suppliers_to_markets every market keeps the suppliers it had and gets exactly one additional entry for each recycled content activity of its product whose region lies inside the market; all other data is unchanged.",
  "every topology and dataset list accepted, at most one RoW activity per name",
  "arbitrary geographies",
  [L+"markets.py:add_recycled_content_suppliers_to_markets", L+"markets.py:apportion_market_suppliers_to_consumers"])
p("C75", "White-listed deletion removes exactly the listed global markets",
  "delete_whitelisted_zero_pv_market_datsets removes exactly the GLO market activities whose name is on its list and keeps all other datasets in order; volumes play no role.",
  "every dataset list",
  "the effect on all datasets that are not on the list is a universal statement",
  [L+"markets.py:delete_whitelisted_zero_pv_market_datsets"])
p("C76", "Confidential activities get a unit volume",
  "assign_fake_pv_to_confidential_datasets gives every listed transforming activity a reference production volume of exactly one, and changes nothing else.",
  "every dataset list accepted",
  "non-interference with all other datasets and exchanges",
  [L+"markets.py:assign_fake_pv_to_confidential_datasets"])
p("C77", "Market group checks",
  "check_no_row_market_groups accepts a dataset list exactly if no market group is located in RoW, and changes nothing; link_market_group_suppliers never succeeds when two market groups of one product have different names.",
  "every dataset list",
  "universal statement over all lists",
  [L+"market_groups.py:check_no_row_market_groups", L+"market_groups.py:link_market_group_suppliers"])
p("C78", "Power clauses become python powers",
  "find_power_clause terminates on every formula, and in a formula made of power(base;exponent) clauses over numbers and other text it replaces each clause by the python power of the same two numbers and leaves the other text alone.",
  "every formula; every sequence of clauses and texts",
  "greedy regular expressions and global text replacement interact across arbitrarily many clauses",
  [PA+"python_compatibility.py:find_power_clause"])
p("C79", "A run's log file is its own",
  "The log file in a run's output directory contains the records of that run and no others, also when several models are run in one python process.",
  "every sequence of runs in one process",
  "the property is about the state that one run leaves to later ones, over every number of runs",
  ["ocelot/logger.py:create_log", "ocelot/logger.py:create_detailed_log", "ocelot/model.py:system_model"])
p("C80", "Constrained-market handling leaves every dataset a reference production volume",
  "If every reference product has a production volume before handle_constrained_markets, every reference product has one afterwards, so that later linking by production volume finds it.",
  "every dataset list accepted",
  "all link graphs; the missing field is only read in later functions",
  [Q+"constrained_markets.py:handle_constrained_markets"])
p("C81", "Undefined technology levels do not stop the consequential model",
  "Transforming activities whose technology level is undefined are treated as current, so that markets supplied only by them still have suppliers after pruning.",
  "every dataset list",
  "composition of two functions over all supplier lists",
  [Q+"technology_levels.py:switch_undefined_to_current", Q+"market_linking.py:prune_suppliers_by_technology_level", "ocelot/configuration.py:consequential_config"])
p("C82", "Pedigree scores of extracted data are used",
  "The pedigree matrix that extraction reads for a number is the one that the repair of its variance and adjust_pedigree_matrix_time work with, so that adjusting extracted data to a later year changes its temporal score.",
  "every extracted dataset and every number in it",
  "two modules that agree on the place of the matrix in hand-written test data and not in extracted data",
  ["ocelot/io/extract_ecospold2.py:extract_uncertainty", U+"pedigree.py:adjust_pedigree_matrix_time", U+"distributions.py"])
p("C83", "Uncertainty is extracted faithfully",
  "extract_uncertainty takes the first of the known distributions, renames the attributes of the format to the data format without changing values, and gives the five pedigree scores; without a matrix all scores are 5 for lognormal and normal distributions.",
  "every XML element",
  "all attribute combinations of eight distributions",
  ["ocelot/io/extract_ecospold2.py:extract_uncertainty", "ocelot/io/extract_ecospold2.py:extract_pedigree_matrix", "ocelot/io/ecospold2_meta.py:UNCERTAINTY_MAPPING"])
p("C84", "Identifiers of datasets are checked exactly",
  "ensure_ids_are_unique returns the data unchanged if no two datasets have the same id and raises IdenticalDatasets otherwise.",
  "every dataset list",
  "all lists, with a repetition at any pair of positions",
  [T+"validation.py:ensure_ids_are_unique"])
p("C85", "Market validation is exact",
  "validate_markets returns the data unchanged exactly if every market activity has exactly one reference product exchange and every other exchange with the reference product's name has an activity link; otherwise it raises InvalidMarket (wrong number of reference products) or InvalidMarketExchange (own consumption), and nothing else.",
  "every dataset list, every number and order of exchanges",
  "all dataset lists and exchange orders",
  [T+"validation.py:validate_markets", T+"validation.py:ensure_markets_only_have_one_reference_product", T+"validation.py:ensure_markets_dont_consume_their_ref_product"])
p("C86", "Allocatable byproducts get production volumes in proportion to the reference product",
  "add_pv_to_allocatable_byproducts gives every allocatable byproduct whose production volume is zero the volume |amount| times the largest absolute ratio of production volume to amount among the reference products with an amount; all other exchanges and all other data stay as they are. It fails only for unclassified byproducts, missing volumes, or when there is an allocatable byproduct but no reference product with an amount. Afterwards such a volume is zero only if the byproduct's amount or all reference volumes are zero.",
  "every dataset list",
  "all combinations of reference products, signs and byproducts",
  [T+"production_volumes.py:add_pv_to_allocatable_byproducts", T+"utils.py:get_biggest_pv_to_exchange_ratio"])
p("C87", "After production volume clean-up volumes are complete and plain numbers",
  "pv_cleanup accepts only data in which every production exchange has a production volume (InvalidExchange otherwise). Afterwards every production exchange has a production volume, no volume has a formula or variable, exchanges are otherwise unchanged, and each former variable of a volume is the variable of a new dataset parameter with the volume's formula and amount.",
  "every dataset list",
  "composition of three passes over all datasets",
  [T+"__init__.py:pv_cleanup", T+"validation.py:ensure_production_exchanges_have_production_volume", PA+"production_volumes.py:create_pv_parameters"])
p("C88", "The report of missing mandatory properties is exact",
  "ensure_mandatory_properties changes nothing, and its table has a row for exactly those exchanges which have properties but lack some of the six mandatory ones; the row names exactly the missing ones, sorted.",
  "every dataset list",
  "all subsets of properties",
  [T+"validation.py:ensure_mandatory_properties"])
p("C89", "Final clean-up functions do exactly what they say",
  "ensure_all_datasets_have_production_volume passes exactly if every dataset has a single reference product with a nonzero production volume. deparameterize leaves no formula, variable, parameter or property anywhere and changes no amount.",
  "every dataset",
  "all datasets",
  [T+"cleanup.py"])

p("C90", "Links lead to datasets of the result",
  "If the cut-off configuration runs to completion on extracted datasets, the code of every exchange of the result is the code of a dataset of the result.",
  "every list of extracted datasets, every topology, every order of sets",
  "a composition of seventeen functions that set codes, after one that assigns them and among some that delete datasets",
  ["ocelot/configuration.py:cutoff_config", L+"__init__.py:link_markets_by_pv", L+"markets.py:delete_global_with_zero_pv_when_regional_present"])
p("C91", "The consequential system model returns linked single-output datasets",
  "If the consequential configuration runs to completion, every returned dataset has exactly one reference product of amount +1 or -1 (up to the 1e-14 tolerance), all dataset codes are unique, and the code of every exchange is the code of a dataset of the result.",
  "every list of extracted datasets",
  "composition of some forty functions over all inputs",
  ["ocelot/configuration.py:consequential_config", "ocelot/transformations/consequential/__init__.py:link_markets_by_technology_level"])
p("C92", "Results can be traced to their source",
  "Every dataset returned by one of the three system models carries the identifier, the file path, the dates, the technology level and the other metadata of one of the given datasets.",
  "every configuration and every input",
  "composition of all functions over all inputs",
  ["ocelot/configuration.py", "ocelot/model.py:system_model"])

p("C93", "The cut-off model keeps inventories",
  "If the cut-off configuration runs to completion on extracted datasets, everything after the datasets have been allocated and coded only scales them: for each returned dataset there is one positive factor (and for markets possibly a sign) by which the net output of every product and the total of every other flow (name, type and compartment) differ from those of the coded dataset. Names lose only the recycled content suffix, and of markets the flows of their own product are not counted.",
  "every list of extracted datasets for which the inputs of each coded dataset have different ids (or refinery gas is sold or unused), every topology, every order of sets",
  "composition of seventeen functions that append, split, relink, rename, flip and scale exchanges, over all inputs",
  ["ocelot/configuration.py:cutoff_config", L+"linking.py", L+"markets.py", T+"utils.py"])
p("C94", "Markets of the result are balanced",
  "If the cut-off configuration runs to completion, each market or market group of the result takes in exactly as much of its product as it puts out, or has no inputs of it, provided it had no other exchanges of its product.",
  "every list of extracted datasets, with the same assumption on ids",
  "all numbers and volumes of suppliers, through all later functions",
  ["ocelot/configuration.py:cutoff_config", L+"markets.py:allocate_suppliers", L+"markets.py:allocate_all_market_suppliers"])
p("C95", "Links of the result lead to the right product",
  "If the cut-off configuration runs to completion, the dataset that a linked exchange of the result leads to has a product with the name of the exchange.",
  "every list of extracted datasets, every exchange of the result",
  "all compositions of the functions that set codes or change names",
  ["ocelot/configuration.py:cutoff_config", L+"linking.py:link_consumers_to_markets", L+"linking.py:actualize_activity_links"])
p("C96", "The consequential model keeps inventories",
  "If the consequential configuration runs to completion on extracted datasets, everything after the datasets have been coded only scales them: for each returned dataset there is one positive factor by which the total of every flow (name, type and compartment) differs from that of the coded dataset. Of markets, the inputs of their own product are not counted.",
  "every list of extracted datasets for which the inputs of each coded dataset have different ids (or refinery gas is sold or unused), every topology, every order of sets",
  "composition of eleven functions that append, split, relink and scale exchanges, over all inputs",
  ["ocelot/configuration.py:consequential_config", L+"linking.py", L+"markets.py", T+"utils.py"])
p("C97", "Markets of the consequential result are balanced",
  "If the consequential configuration runs to completion, each market of the result takes in exactly as much of its product as it puts out, or has no inputs of it, provided it had no inputs of its product before the linking; market groups get no inputs of their product.",
  "every list of extracted datasets, with the same assumption on ids",
  "all numbers, volumes and technology levels of suppliers, through all later functions",
  ["ocelot/configuration.py:consequential_config", L+"markets.py:allocate_suppliers", L+"markets.py:allocate_all_market_suppliers"])
p("C98", "Links of the consequential result lead to the right product in the result",
  "If the consequential configuration runs to completion, a linked exchange of the result leads to a dataset of the result whose product has the name of the exchange.",
  "every list of extracted datasets, every exchange of the result",
  "all compositions of the functions that set codes or change names or delete datasets",
  ["ocelot/configuration.py:consequential_config", L+"linking.py:link_consumers_to_markets", L+"linking.py:actualize_activity_links"])

p("C99", "Safe file names",
  "safe_filename turns any text into a file name without white space in which every ASCII character is a letter, a digit, an underscore, a dash or a dot, that ends with a dot and the md5 hash of the original text; texts with different hashes get different names.",
  "every text", "all texts, including other scripts and control characters",
  ["ocelot/filesystem.py:safe_filename", "ocelot/filesystem.py"])
p("C100", "Files of a run",
  "A run whose functions all succeed leaves in its output directory exactly the logs, the intermediate result after each function that the saving strategy chooses, the followed datasets after each function (if there are any) and the final result; each holds the data of that moment and none overwrites another.",
  "every list of functions, every saving strategy, every text to follow without a directory separator", "all combinations of functions and strategies, names of functions as arbitrary texts",
  ["ocelot/model.py:system_model", "ocelot/model.py:apply_transformation", "ocelot/results.py:SaveStrategy", "ocelot/filesystem.py:save_intermediate_result"])
p("C101", "Following one dataset",
  "With follow set to the file path of a dataset, a run succeeds as without it and saves the states of this dataset, and of no other.",
  "every file path, every list of datasets and functions", "all file paths and lists of datasets",
  ["ocelot/model.py:apply_transformation", "ocelot/filesystem.py:save_intermediate_result"])
p("C102", "Caches of several source directories",
  "The cache of one source directory is not affected by anything done with other source directories: extraction from a directory gives its current content, whatever was extracted from others before or after.",
  "every interleaving of changes and extractions in any number of directories", "all histories over any number of directories",
  ["ocelot/filesystem.py:cache_data", "ocelot/filesystem.py:check_cache_directory", "ocelot/filesystem.py:get_cache_filepath_for_data_path"])

p("C103", "Extracted data satisfy the internal schema",
  "Every dataset that is valid by the ecospold2 schema is extracted to data that pass the internal validation, and the validated data are those that the model works on.",
  "every ecospold2 dataset", "all documents of the ecospold2 schema, with all optional parts",
  ["ocelot/io/validate_internal.py:dataset_schema", "ocelot/io/extract_ecospold2.py:extract_ecospold2_dataset"])
p("C104", "Internal validation reports every invalid dataset",
  "validate_directory reports no errors exactly if all datasets satisfy the internal schema; otherwise it reports each dataset that does not, and their number.",
  "every list of extracted datasets", "all lists of datasets and error messages",
  ["ocelot/io/validate_ecospold2.py:validate_directory"])

p("C105", "Repairs of known data errors",
  "The functions that repair known errors of ecoinvent change exactly what they name: empty exchanges of refinery gas leave petroleum refineries, one transport gets another location, links to one dataset missing from version 3.5 are removed, and in four activities a text in formulas is replaced by one with the same value; everything else is left as it is.",
  "every list of datasets", "all datasets, names, links and formulas; also formulas that hold the text several times",
  ["ocelot/transformations/parameterization/known_ecoinvent_issues.py:fix_specific_ecoinvent_issues", "ocelot/transformations/parameterization/known_ecoinvent_issues.py:fix_known_bad_formula_strings", "ocelot/transformations/locations/cleanup.py:correct_natural_gas_pipeline_location", "ocelot/transformations/activity_links.py:fix_35_activity_links"])

p("C106", "Nothing is lost or counted twice in the cut-off model",
  "Take an activity of the source data that is not a market and has at most one reference product with an amount, and all datasets that the cut-off model makes of it, each as many times as is needed for the amounts of products that the activity states. Together they have exactly the emissions, resources, inputs and wastes of the activity (without its consequential exchanges), before linking; and after the whole model they have exactly its emissions and resources.",
  "every list of extracted datasets for which the model runs, every such activity whose production exchanges have different ids, every flow; after linking, with the assumption of C93 on the ids of inputs", "all numbers of products, kinds of allocation, prices and amounts, through some forty functions",
  ["ocelot/configuration.py:cutoff_config", "ocelot/transformations/cutoff/economic.py:economic_allocation", "ocelot/transformations/cutoff/wastes.py:recycling_allocation", "ocelot/transformations/cutoff/wastes.py:waste_treatment_allocation", "ocelot/transformations/utils.py:choose_reference_product_exchange"])
p("C107", "Emissions and resources in the consequential model",
  "The consequential model makes exactly one dataset of each activity of the source data that is not a market and has at most one reference product. It has exactly the emissions and resources of the activity; the dataset that is returned has them divided by one number, by which its product is divided as well.",
  "every list of extracted datasets for which the model runs and in which conditional exchanges are not emissions or resources, every such activity, every emission and resource; after linking, with the assumption of C96 on the ids of inputs", "all lists of datasets and flows, through some thirty functions",
  ["ocelot/configuration.py:consequential_config", "ocelot/transformations/consequential/constrained_markets.py:handle_constrained_markets"])

p("C108", "Results do not depend on the order of sets",
  "Two processes that run a system model with the same settings on the same data, but iterate over sets in different orders (as Python does with different hash seeds) and evaluate variables in different orders (each after the variables that it uses), either both fail or return the same datasets, in the same order and with the same values, and differ only in the order of the exchanges and of the suppliers of a dataset.",
  "every list of extracted datasets, every pair of iteration orders for every set, every pair of admissible evaluation orders, with exact arithmetic and the same identifiers for new parameters; both system models", "all hash seeds; the order of suppliers passes through some fifteen functions",
  ["ocelot/configuration.py:cutoff_config", "ocelot/configuration.py:consequential_config", "ocelot/transformations/locations/markets.py:add_suppliers_to_markets", "ocelot/transformations/locations/markets.py:add_recycled_content_suppliers_to_markets", "ocelot/transformations/parameterization/recalculation.py:recalculate"])

p("C109", "Results can be exported to Brightway2",
  "If a system model runs to the end on datasets with dates, technology levels and compartments, its result can be exported to Brightway2, and the exported database is square: activities have different codes, each has exactly one production exchange, of its own code and of amount one or minus one, and every other technosphere exchange refers to an exported activity.",
  "every list of extracted datasets on which a system model runs to the end, every database name; both system models", "composition of some forty functions and of the export, over all inputs",
  ["ocelot/configuration.py:cutoff_config", "ocelot/configuration.py:consequential_config", "ocelot/io/brightway2.py:Brightway2Converter", "ocelot/transformations/identifying.py:add_unique_codes"])

p("C110", "Results do not depend on the order of the files",
  "The order in which a directory lists its files, and so the order in which datasets are given to a system model, has no influence on the result: runs on the same datasets in two orders return the same datasets, up to their order and the order of exchanges and suppliers in each.",
  "every list of extracted datasets on which the cut-off or the consequential model runs to the end, every permutation of it, every iteration order of sets", "all permutations of all lists, through some sixty functions of which many look at the first or last of a group",
  ["ocelot/io/extract_ecospold2.py:extract_ecospold2_directory", "ocelot/configuration.py:cutoff_config", "ocelot/configuration.py:consequential_config", "ocelot/transformations/consequential/constrained_markets.py:handle_constrained_markets", "ocelot/transformations/cutoff/wastes.py:create_recycled_content_datasets", "ocelot/transformations/locations/markets.py:delete_global_with_zero_pv_when_regional_present", "ocelot/transformations/locations/linking.py:link_consumers_to_markets"])

p("C111", "Labelled datasets satisfy the internal schema",
  "A dataset that satisfies the internal schema still does after the label of its allocation method, which is optional in the schema, has been added.",
  "every dataset that satisfies the schema, every dataset with classified byproducts", "all datasets; schema and labels are in modules that do not know each other",
  ["ocelot/io/validate_internal.py:valid_allocation_method", "ocelot/transformations/cutoff/allocation.py:choose_allocation_method"])

p("C112", "Consistent databases are processed without error",
  "The cut-off model runs to the end, without raising an error, on every consistent database of activities with one reference product, whose products have production volumes and whose distributions are complete: ids are unique, activities with several products can be divided (products with different names, amounts other than zero and, unless a waste is treated, prices and revenues), markets have no byproducts other than wastes, activities with recyclable byproducts have dates, places are known, markets for the same product and datasets of the same activity do not overlap, market groups cover a market, activity links lead to datasets with the right product, and every input of the datasets after allocation is sold by a market or has an activity link.",
  "every list of extracted datasets that is consistent in this sense, of any size, every well-formed topology, every iteration order of sets; both configurations of the cut-off model", "composition of some forty functions that can each raise errors, over all consistent databases",
  ["ocelot/configuration.py:cutoff_config", "ocelot/configuration.py:cutoff_config_ecoinvent_row", "ocelot/transformations/locations/markets.py:add_suppliers_to_markets", "ocelot/transformations/activity_links.py:add_hard_linked_production_volumes", "ocelot/transformations/cutoff/wastes.py:flip_non_allocatable_byproducts", "ocelot/transformations/locations/linking.py:link_consumers_to_markets"])

p("C113", "Consistent databases without constrained markets are processed without error by the consequential model",
  "The consequential model runs to the end, without raising an error, on every consistent database of activities that have one product with a production volume, in which no market is constrained, every byproduct is the product of some activity, and every activity that is not a market has one of the five technology levels: ids are unique, places are known, markets for the same product and datasets of the same activity do not overlap, market groups cover a market, and every input is sold by a market.",
  "every list of extracted datasets that is consistent in this sense, of any size, every well-formed topology, every iteration order of sets", "composition of some thirty functions that can each raise errors, over all consistent databases",
  ["ocelot/configuration.py:consequential_config", "ocelot/transformations/consequential/market_linking.py:prune_suppliers_by_technology_level", "ocelot/transformations/consequential/byproducts.py:ensure_byproducts_have_alternative_production", "ocelot/transformations/consequential/constrained_markets.py:delete_activity_links_to_constrained_markets", "ocelot/transformations/locations/markets.py:add_suppliers_to_markets", "ocelot/transformations/production_volumes.py:add_pv_to_allocatable_byproducts"])

p("C114", "An interrupted extraction does no harm later",
  "After any history of changes of a source directory and of extractions from it, any of which may have been interrupted at any moment, extract_directory with the cache returns the data of the files as they are now.",
  "every history of changes, completed extractions and extractions interrupted after any number of bytes of the cache file, with an advancing clock", "all crash points in all histories",
  ["ocelot/io/__init__.py:extract_directory", "ocelot/filesystem.py:cache_data", "ocelot/filesystem.py:check_cache_directory", "ocelot/filesystem.py:get_from_cache"])

p("C115", "Simultaneous extractions of the same directory leave a usable cache",
  "If several programs extract the same directory at the same time, then once all of them have finished the cache file holds the data of one of them, whatever the order of their writes.",
  "every number of programs, every schedule of opening, writing and closing the cache file", "all interleavings of writes of all sizes",
  ["ocelot/io/__init__.py:extract_directory", "ocelot/filesystem.py:cache_data"])

p("C116", "An interrupted clean-up is completed by the next one",
  "If cleaning up the output directories is interrupted at any moment, nothing that should be kept is lost, and the next clean-up deletes everything that the first one should have deleted.",
  "every output directory, every moment of interruption between two deletions of files, every later time of the next clean-up", "all crash points for all directory contents",
  ["ocelot/io/cleanup.py:cleanup_data_directory"])

p("C117", "The distribution handed to the sampler fits the exchange and is scaled with it",
  "After repair, the stats_arrays description of a number has its amount, its location (or the logarithm of it) and its sign, bounds around the amount and a standard deviation that is not negative; scaling an exchange by a factor other than zero gives the description of the scaled random variable.",
  "every number with any supported distribution, every factor other than zero", "all amounts, factors and distribution parameters",
  ["ocelot/transformations/uncertainty/distributions.py:to_stats_arrays", "ocelot/transformations/uncertainty/distributions.py:rescale", "ocelot/transformations/uncertainty/distributions.py:repair", "ocelot/transformations/uncertainty/__init__.py:scale_exchange"])

p("C118", "Intersection of places is exact and symmetric",
  "intersected(place) lists exactly the places that have a face in common with it, and intersects(a, b) is the same as intersects(b, a).",
  "every topology, all pairs of places", "all maps from places to faces",
  ["ocelot/transformations/locations/_topology.py:intersected", "ocelot/transformations/locations/_topology.py:intersects"])

p("C119", "Databases with constrained markets are processed by the consequential model",
  "The consequential model runs to the end on consistent databases whose markets are constrained in the documented way: a byproduct of negative amount linked to a transforming activity that has the same product as an input.",
  "every list of extracted datasets in which a constrained exchange leads to an activity that has the product as an input, of any size, every well-formed topology, every iteration order of sets", "the failure only shows when the functions for constrained markets, supplier choice and market volumes are composed; each is tested alone",
  ["ocelot/configuration.py:consequential_config", "ocelot/transformations/consequential/constrained_markets.py:handle_constrained_markets", "ocelot/transformations/locations/markets.py:add_suppliers_to_markets", "ocelot/transformations/locations/markets.py:update_market_production_volumes", "ocelot/transformations/consequential/market_linking.py:prune_suppliers_by_technology_level"])

p("C120", "Normalisation is stable under rounding",
  "In floating point arithmetic normalize_reference_production_amount leaves the reference product with its old sign and an absolute amount within 1.1e-14 of one, and normalising a second time changes nothing at all.",
  "every rounding to nearest with 53 bits (any monotone, sign-symmetric rounding with relative error at most 2^-53), every dataset, all amounts without overflow or underflow", "all amounts: a test sees the rounding errors of the amounts it tries",
  ["ocelot/transformations/utils.py:normalize_reference_production_amount", "ocelot/transformations/uncertainty/__init__.py:scale_exchange"])

p("C121", "Rounding never pushes an amount out of its bounds",
  "Scaling an exchange with a well-formed uniform or triangular distribution by any factor never raises in floating point arithmetic: the rounded amount stays between the rounded bounds, and the uncertainty is dropped only when the rounded bounds coincide.",
  "every monotone rounding with relative error at most 2^-53, all amounts, bounds and factors", "all triples of numbers and all factors",
  ["ocelot/transformations/uncertainty/distributions.py:Uniform.rescale", "ocelot/transformations/uncertainty/distributions.py:Triangular.rescale"])

p("C122", "Allocation factors add up to one up to rounding",
  "The economic allocation factors of n products, with and without true values, are non-negative and add up to one within 2(3+3n) units of roundoff, whatever the order in which pandas adds; the shares of any exchange add up to its amount within 2(4+3n) units of roundoff. Every single factor is the exact one within a relative 2(3n+7) units of roundoff, and the computation succeeds exactly if it does with exact numbers.",
  "every rounding with relative error at most 2^-53, every number of products, all non-negative prices, amounts and true values, every order of the additions", "all numbers of products and all orders of summation; a test shows the error of one example",
  ["ocelot/transformations/cutoff/economic.py:economic_allocation", "ocelot/transformations/utils.py:allocatable_production_as_dataframe", "ocelot/transformations/uncertainty/__init__.py:scale_exchange"])

p("C123", "Market shares add up to the market's output up to rounding",
  "The inputs of a market from its n suppliers add up to the market's output within 2(n+2) units of roundoff relative to it; so do the inputs that replace an unlinked input of a consumer when it is divided between n markets, and they are of the same product and carry the codes of these markets; every single input is its supplier's exact share within the same relative error, and exactly the suppliers without volume get none; without any tolerance, a supplier with at least the volume of another one delivers at least as much, and no supplier of a market delivers more than the market's output if output and volumes are floating point numbers; the net production volume of a market is computed within (2n+2) units of roundoff of the volumes that enter, and is never negative.",
  "every rounding with relative error at most 2^-53, every number of suppliers, all non-negative volumes in any order", "all numbers of suppliers and all volumes",
  ["ocelot/transformations/locations/markets.py:allocate_suppliers", "ocelot/transformations/locations/markets.py:update_market_production_volumes"])

p("C124", "Importing into Brightway2 is all or nothing",
  "import_into_brightway2 never changes a database that exists; it creates the named database exactly when it returns it, and then with one activity per dataset, every exchange linked, and the inventory of each dataset unchanged. A refused import changes nothing, and data that were not written can be imported again.",
  "every list of datasets, every project and database name, every background database", "all databases and projects, and the state left behind by a first import for a second one; Brightway2 is not available to the tests",
  ["ocelot/io/brightway2.py:import_into_brightway2", "ocelot/io/brightway2.py:Brightway2Converter"])

p("C125", "Every run gets a directory of its own",
  "A run that starts has a new, empty, writeable directory named by its identifier: in the directory that is given, else in that of OCELOT_OUTPUT if it can be used, else in the user's data directory. Nothing that exists in the file system is changed; if there is no usable directory, OutputDirectoryError is raised.",
  "every file system, every value of the environment variable, every directory that is given, runs with different identifiers", "all file systems: missing, unwriteable and obstructed directories at any depth",
  ["ocelot/filesystem.py:OutputDir", "ocelot/filesystem.py:get_output_directory", "ocelot/filesystem.py:get_cache_directory", "ocelot/filesystem.py:create_dir", "ocelot/filesystem.py:check_dir"])

p("C126", "Errors in the recalculation of one dataset do no harm",
  "recalculate_all_parameterized_datasets recalculates every dataset whose formulas can be evaluated; a dataset with an error is listed in the report and left as it was, and the others are not affected.",
  "every list of datasets, every formula language and evaluation order, errors at any formula of any dataset", "all positions at which evaluation can fail, and the state that is left behind there",
  ["ocelot/transformations/parameterization/recalculation.py:recalculate_all_parameterized_datasets", "ocelot/transformations/parameterization/recalculation.py:recalculate", "ocelot/transformations/utils.py:iterate_all_parameters"])

p("C127", "The tables of the report list exactly what was changed",
  "For every transformation function that logs a table, the report has one row for every exchange or dataset that the function changed, deleted, created or failed to resolve, with its values, and no row for anything else.",
  "every list of datasets; the twenty functions that log table rows", "all inputs: a row that is missing for one kind of exchange is only seen with such an exchange, and tests do not compare the log with the data",
  ["ocelot/transformations/cutoff/cleanup.py", "ocelot/transformations/activity_links.py:update_activity_link_parent_child", "ocelot/transformations/production_volumes.py:add_pv_to_allocatable_byproducts", "ocelot/transformations/cutoff/wastes.py", "ocelot/transformations/cutoff/markets.py:adjust_market_signs_for_allocatable_products", "ocelot/transformations/cutoff/allocation.py:label_allocation_method", "ocelot/transformations/utils.py:normalize_reference_production_amount", "ocelot/transformations/locations/markets.py", "ocelot/transformations/locations/rest_of_world.py:relabel_global_to_row", "ocelot/transformations/locations/linking.py", "ocelot/transformations/consequential/constrained_markets.py", "ocelot/transformations/consequential/technology_levels.py"])

p("C128", "The table of market production volumes balances",
  "The report of update_market_production_volumes has one row for every market (or market group); its net volume is the production volume the market has afterwards, and equals the original volume of its suppliers without the volumes bound by hard links to the suppliers and to the market, at least zero.",
  "every list of datasets, every topology, markets and market groups with any suppliers", "all combinations of volumes and subtractions; the columns are computed separately and no test compares them",
  ["ocelot/transformations/locations/markets.py:update_market_production_volumes", "ocelot/transformations/activity_links.py:update_transforming_activity_production_volumes", "ocelot/transformations/locations/rest_of_world.py:relabel_global_to_row"])

p("C129", "Results do not depend on the units of volumes and prices",
  "If all production volumes are measured in another unit, all prices in another currency, and elementary flows in other units, every system model gives the same result in these units: the same datasets, links, codes and product amounts, production volumes and elementary flows multiplied by the factors, and the same exception if it fails.",
  "every list of datasets, every choice of positive factors, every topology and iteration order, the three configurations", "all factors and all data at once; a threshold, a default value or a sum of different quantities anywhere in the pipeline would break it, and tests use one unit",
  ["ocelot/configuration.py", "ocelot/transformations/locations/markets.py:allocate_suppliers", "ocelot/transformations/locations/markets.py:assign_fake_pv_to_confidential_datasets", "ocelot/transformations/cutoff/wastes.py:create_new_recycled_content_dataset", "ocelot/transformations/cutoff/economic.py:economic_allocation", "ocelot/transformations/activity_links.py"])

p("C130", "Validation against an XML schema names exactly the invalid files",
  "Validating a directory against an XSD prints the names of exactly those ecospold2 files that are not valid, and says that all are valid if there are none.",
  "every directory, every schema, every content of the files", "any subset of the files can be invalid or malformed; tests of this function do not exist, since it prints and returns nothing",
  ["ocelot/io/validate_ecospold2.py:validate_directory_against_xsd"])
p("C131", "Every command of the command line does what the help text says",
  "Each form of the command line that the usage text lists calls the function it documents with the arguments given (the default schema if none is named, the report unless --noshow), and the exit status is zero exactly if the command came to an end.",
  "every form of the usage text with every choice of arguments, every behaviour of the functions called (success, exception, interruption)", "exceptions and interruptions inside the called functions are part of the quantifier; there are no tests of the command line",
  ["ocelot/bin/ocelot_cli.py:main"])

p("C132", "Parts of the database that are not connected do not influence each other",
  "If the datasets are divided in two parts such that no dataset refers to a name or a dataset of the other part, and the part in question does not include refinery gas, then each system model gives for this part exactly what it gives when it is run on the part alone: the same datasets in the same order with the same amounts, volumes and codes. So adding, changing or removing unrelated datasets changes nothing.",
  "every database and every division of it by names and ids, every topology, iteration order and formula environment, the three configurations", "all databases with all unrelated rests at once; a leaked variable, a default taken over all datasets or a global sum anywhere in fifty functions would break it",
  ["ocelot/configuration.py", "ocelot/transformations/locations/linking.py:link_consumers_to_markets", "ocelot/transformations/locations/markets.py", "ocelot/transformations/locations/rest_of_world.py", "ocelot/transformations/consequential/constrained_markets.py", "ocelot/transformations/activity_links.py"])

p("C133", "The detailed log tells what happened to a dataset",
  "What the functions write to the detailed log is what they do, and writing it changes nothing. For hard links: one line for each link, about the dataset that is linked to, and the amounts in the lines about a dataset are together what is subtracted from its volumes. For production volumes: one line for each volume that is reduced. For allocation: one line for each dataset with its method. For relabelling: one line for each dataset whose location changed, with the volume before and after. For activity links: one line for each link that is resolved, with the dataset that is linked. For markets: the lines give the amount, the unit and the product of the inputs that are created, which sum to the amount of the market, and identify the supplier of each. For consumers: the lines give the markets that an input is linked to and the amounts from each. For recalculation: one line for each dataset that could not be recalculated.",
  "every database and every single call", "all databases at once, line by line against every change; the log is not compared with the effects in the test suite",
  ["ocelot/logger.py", "ocelot/transformations/activity_links.py", "ocelot/transformations/cutoff/allocation.py", "ocelot/transformations/locations/rest_of_world.py", "ocelot/transformations/locations/linking.py", "ocelot/transformations/locations/markets.py", "ocelot/transformations/parameterization/recalculation.py"])

p("C134", "Results do not depend on how activities are identified",
  "Give other identifiers to all activities (different ones to different activities), together with the parents and activity links that refer to them, and other file names and metadata. Then running any list of the functions - the configurations of all system models, or any other - gives the same result with the new identifiers, or the same exception. In particular no name, place, amount, production volume, code or link by code changes. Exceptions: the empty identifier (no link), and the one identifier that is written in the source.",
  "every database, every renaming, every configuration made of the modelled functions", "two runs are compared, over all databases, renamings and configurations; a test has one set of identifiers",
  ["ocelot/transformations/activity_links.py", "ocelot/transformations/locations/linking.py", "ocelot/transformations/locations/markets.py", "ocelot/transformations/consequential/constrained_markets.py", "ocelot/transformations/cutoff/__init__.py", "ocelot/transformations/consequential/__init__.py", "ocelot/model.py"])

p("C135", "The size at which an activity is described does not matter",
  "Multiply the amounts of all exchanges of an activity, which carry no uncertainty, by the same positive number; prices and yearly production volumes stay. Then the allocation method is the same; normalising, and allocation by revenue, of recycling and of waste treatment, give the same number of activities with the same content, or the same exception, up to a common factor that is one within 3e-14 (the tolerance below which normalising does nothing), and exactly the same if no product is within the tolerance of one without being one. The same holds exactly, uncertainty included, for normalising and for allocation by revenue of amounts with settled distributions that are scaled with the amount (every product having a share). Combined production gives the same activities at the other size if the exchanges are plain numbers, and combined production without products or with byproducts the same results as above. The production volumes estimated for byproducts, and what hard links take from the volumes of their suppliers, are exactly the same.",
  "every dataset, every positive factor", "two runs over all datasets and factors are compared; tests use one size",
  ["ocelot/transformations/utils.py", "ocelot/transformations/cutoff/economic.py", "ocelot/transformations/cutoff/wastes.py", "ocelot/transformations/cutoff/combined.py", "ocelot/transformations/cutoff/allocation.py", "ocelot/transformations/production_volumes.py", "ocelot/transformations/activity_links.py"])

p("C136", "Prices and production volumes act in the right direction",
  "If one product of an activity gets dearer and nothing else changes, economic allocation still succeeds, the share of that product does not fall, and the share of no other product rises, except that products with a true value relation rise and fall together with their joint revenue; accordingly the activity for that product does not take or emit less of anything per unit, and the other activities not more. If one supplier of a market gets a bigger production volume, the market does not get less from it, nor more from any other supplier. If one market or market group gets a bigger production volume, no consumer gets less from it, nor more from any other.",
  "every list of products with non-negative amounts, prices and true values; every market with non-negative volumes; every list of datasets whose volumes and unlinked inputs are not negative", "the comparison is between two runs, for all numbers of products and all changes of price or volume",
  ["ocelot/transformations/cutoff/economic.py", "ocelot/transformations/utils.py", "ocelot/transformations/locations/markets.py", "ocelot/transformations/locations/linking.py"])

p("C137", "What an activity takes or emits does not influence how it is shared out",
  "For given products there is one number for each activity made by economic allocation, recycling allocation or waste treatment allocation; whatever else the activity takes or emits, the new activity gets that number times the total of each flow, per unit of its product. In recycling the treated material counts as an input. So results for two activities with the same products can be added. Which method is used depends on products, name, type and the presence of a conditional exchange only.",
  "every list of products, every activity with these products, every flow", "one number has to work for all possible inputs and emissions at once",
  ["ocelot/transformations/cutoff/economic.py", "ocelot/transformations/cutoff/wastes.py", "ocelot/transformations/cutoff/utils.py", "ocelot/transformations/cutoff/allocation.py"])

p("C138", "It does not matter whether one product or supplier is described as two",
  "If a product is described as two products with the same price and true value, whose amounts add up to its amount, economic allocation still succeeds, the two together get the share of the product in proportion to their amounts, and every other share stays the same; the activities for the two take and emit the same per unit as the activity for the one, and the other activities are not affected. If a supplier of a market is described as two whose production volumes add up to its volume, the two together deliver what it delivered and all others deliver the same.",
  "every list of products, every market, every way to divide the amount or volume", "the comparison is between two runs on different input, for all ways to divide a product or supplier",
  ["ocelot/transformations/cutoff/economic.py", "ocelot/transformations/utils.py", "ocelot/transformations/locations/markets.py"])

out = os.path.join(os.path.dirname(os.path.abspath(__file__)), "..", "properties.jsonl")
with open(out, "w") as f:
    for r in P:
        f.write(json.dumps(r) + "\n")
print(len(P))
