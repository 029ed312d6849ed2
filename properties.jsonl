{"id": "C01", "title": "Scaling multiplies the amount, whatever the distribution", "statement": "Whenever scale_exchange(exc, f) returns, the returned exchange's amount is exactly amount*f and every non-uncertainty field (name, id, type, unit, classification, links, production volume, properties) is unchanged; with f == 1 the exchange is returned untouched; an unsupported distribution raises UnsupportedDistribution for every f != 1.", "quantifier": "every exchange, every supported and unsupported distribution with any parameter values, every rational factor", "why_tests_cant": "infinitely many amounts, factors and parameter combinations; five distribution-specific code paths", "anchors": ["ocelot/transformations/uncertainty/__init__.py:scale_exchange", "ocelot/transformations/uncertainty/distributions.py:*.rescale"]}
{"id": "C02", "title": "Scaling keeps bounded distributions well-formed", "statement": "For a uniform or triangular exchange whose bounds are ordered and contain the amount, scaling never raises, and afterwards either the uncertainty is gone (only when the interval is a single point) or the bounds are the image of the old interval, are ordered and contain the new amount (mode = amount for triangular) - also for negative factors.", "quantifier": "every well-formed uniform/triangular exchange and every factor, including zero and negatives", "why_tests_cant": "depends on sign and magnitude of arbitrary rationals, not on a sample", "anchors": ["ocelot/transformations/uncertainty/distributions.py:Uniform.rescale", "ocelot/transformations/uncertainty/distributions.py:Triangular.rescale"]}
{"id": "C03", "title": "Scaling composes", "statement": "Scaling by a and then by b gives the same exchange as scaling once by a*b (a, b nonzero), for exchanges without uncertainty, with undefined, triangular, normal and lognormal uncertainty in repaired form; in particular flipping the sign twice is the identity.", "quantifier": "every repaired exchange, every pair of nonzero factors", "why_tests_cant": "an algebraic law over all rationals", "anchors": ["ocelot/transformations/uncertainty/__init__.py:scale_exchange", "ocelot/transformations/uncertainty/distributions.py"]}
{"id": "C04", "title": "Lognormal stays consistent with its amount", "statement": "After scaling a lognormal exchange by a nonzero factor, mean = |amount|, mu = log(mean) and the negative flag is toggled exactly when the factor is negative; after repair, the negative flag is true exactly when the amount is negative, mean = |amount|; this sign agreement is preserved by any sequence of scalings.", "quantifier": "every lognormal exchange, every sequence of nonzero factors", "why_tests_cant": "invariant over all operation sequences", "anchors": ["ocelot/transformations/uncertainty/distributions.py:Lognormal.rescale", "ocelot/transformations/uncertainty/distributions.py:Lognormal.repair"]}
{"id": "C05", "title": "Normal distribution: relative spread preserved and location follows the amount", "statement": "Scaling a normal exchange multiplies its variance by factor^2 (so sigma/mu is preserved) and the location parameter handed to the sampler equals the new amount.", "quantifier": "every normal exchange with nonzero amount, every factor", "why_tests_cant": "an equation over all rationals", "anchors": ["ocelot/transformations/uncertainty/distributions.py:Normal.rescale", "ocelot/transformations/uncertainty/distributions.py:Normal.to_stats_arrays"]}
{"id": "C06", "title": "Repair is idempotent", "statement": "Repairing an uncertainty distribution twice gives the same object as repairing it once, for every distribution.", "quantifier": "every object with an uncertainty dictionary", "why_tests_cant": "boundary cases of arbitrary real parameters (e.g. variance exactly 1 or e)", "anchors": ["ocelot/transformations/uncertainty/distributions.py:*.repair", "ocelot/transformations/parameterization/uncertainty.py", "ocelot/transformations/parameterization/recalculation.py:recalculate"]}
{"id": "C07", "title": "Repair never changes the amount and leaves a valid distribution", "statement": "If repair returns, amount is unchanged and the remaining distribution is valid: uniform/triangular bounds ordered and containing the amount, triangular mode = amount, lognormal mean = |amount| > 0; repair raises only for a uniform distribution whose amount is outside its bounds (or missing fields).", "quantifier": "every object with an uncertainty dictionary", "why_tests_cant": "all rational parameter values", "anchors": ["ocelot/transformations/uncertainty/distributions.py:*.repair"]}
{"id": "C08", "title": "Pedigree time adjustment is monotone and never optimistic", "statement": "adjust_pedigree_matrix_time never lowers the temporal-correlation score of a score in 1..5, keeps it in 1..5, leaves it alone when the year difference is zero, is monotone in the year difference and in the current score, and changes nothing else.", "quantifier": "every current score 1..5, every year difference (unbounded)", "why_tests_cant": "year difference is unbounded", "anchors": ["ocelot/transformations/uncertainty/pedigree.py:adjust_pedigree_matrix_time"]}
{"id": "C09", "title": "Pedigree variance is non-negative, bounded and monotone; works on extracted matrices", "statement": "For a matrix with scores in 1..5, get_pedigree_variance is >= 0, is 0 when all scores are 1, and does not decrease when any score is raised; it is defined on every pedigree matrix that extraction produces.", "quantifier": "every pedigree matrix over the known indicator names", "why_tests_cant": "all combinations of indicators and scores, any subset of indicators", "anchors": ["ocelot/transformations/uncertainty/pedigree.py:get_pedigree_variance", "ocelot/io/ecospold2_meta.py:PEDIGREE_LABELS"]}
{"id": "C10", "title": "Normalisation makes the reference product +1 or -1 and keeps proportions", "statement": "normalize_reference_production_amount returns one dataset in which the reference product amount has absolute value 1 (or was already within the 1e-14 tolerance and nothing was changed), its sign is kept, and every exchange amount is multiplied by the same positive factor; it raises exactly for no / several reference products, a zero amount, or an unscalable exchange; applying it twice equals applying it once.", "quantifier": "every dataset", "why_tests_cant": "all datasets and amounts; idempotence is a universally quantified law", "anchors": ["ocelot/transformations/utils.py:normalize_reference_production_amount", "ocelot/transformations/utils.py:get_single_reference_product"]}
{"id": "C11", "title": "Choosing a reference product yields a single-output dataset", "statement": "choose_reference_product_exchange(ds, exc, f) returns a dataset with exactly one reference product exchange (the chosen one, amount +-1 up to tolerance, no uncertainty, no classification), no allocatable byproducts, every other production exchange turned into a zero-amount dropped product without formula/production volume/uncertainty, and every non-production exchange amount multiplied by f/|exc amount|; the input dataset is not modified; a zero-amount choice raises ZeroProduction.", "quantifier": "every dataset, chosen exchange and factor", "why_tests_cant": "all multi-output datasets", "anchors": ["ocelot/transformations/utils.py:choose_reference_product_exchange", "ocelot/transformations/utils.py:nonreference_product"]}
{"id": "C12", "title": "Production-volume ratio is the extreme one", "statement": "get_biggest_pv_to_exchange_ratio returns a ratio pv/amount of some nonzero reference product whose absolute value is at least that of every other; it raises ZeroProduction exactly when all reference product amounts are zero; its absolute value does not depend on the order of the exchanges.", "quantifier": "every dataset, every reordering of its exchanges", "why_tests_cant": "all orders and values", "anchors": ["ocelot/transformations/utils.py:get_biggest_pv_to_exchange_ratio"]}
{"id": "C13", "title": "Allocation method choice is total and follows the documented decision tree", "statement": "choose_allocation_method returns one of the ten labels in ALLOCATION_METHODS, each exactly under the documented conditions; its internal assertion never fires, and the only possible failure is a KeyError for a byproduct without classification (unless both searches for allocatable products end before it).", "quantifier": "every dataset", "why_tests_cant": "combinations of exchange types, signs and classifications over unbounded lists", "anchors": ["ocelot/transformations/cutoff/allocation.py:choose_allocation_method", "ocelot/transformations/cutoff/allocation.py:ALLOCATION_METHODS"]}
{"id": "C14", "title": "Economic allocation factors are a partition of unity", "statement": "When economic_allocation accepts a dataset with positive total revenue (and non-negative true values with a positive total if any exchange has one), the allocation factors are all >= 0 and sum to exactly 1.", "quantifier": "every valid multi-output dataset, with any mixture of true-value and price-only products", "why_tests_cant": "arbitrary lists of rational prices, amounts, true values", "anchors": ["ocelot/transformations/cutoff/economic.py:economic_allocation", "ocelot/transformations/utils.py:allocatable_production_as_dataframe"]}
{"id": "C15", "title": "Economic allocation conserves every burden", "statement": "For each non-production exchange of the input, the sum over the output datasets of (its amount in the output) x (original amount of that output's product / normalised amount) equals its original amount: nothing is lost or double counted.", "quantifier": "every dataset accepted by economic_allocation", "why_tests_cant": "a conservation law over all datasets", "anchors": ["ocelot/transformations/cutoff/economic.py:economic_allocation", "ocelot/transformations/cutoff/utils.py:apply_allocation_factors", "ocelot/transformations/utils.py:choose_reference_product_exchange"]}
{"id": "C16", "title": "True value only redistributes within the true-value products", "statement": "Products without a true value relation keep factor revenue/total revenue; the true-value products together keep their joint revenue share, and within that group factors are proportional to true value x amount.", "quantifier": "every valid dataset", "why_tests_cant": "arbitrary mixtures of products", "anchors": ["ocelot/transformations/cutoff/economic.py:economic_allocation"]}
{"id": "C17", "title": "Waste treatment: all burdens stay with the treatment, byproducts are free", "statement": "waste_treatment_allocation returns 1 + (number of allocatable byproducts) datasets: the first carries every non-production exchange scaled only by normalisation and has the waste as its negative reference product; each further one consists of exactly one exchange, its byproduct, with amount +-1; it raises InvalidExchange for a non-waste or non-negative reference product.", "quantifier": "every dataset", "why_tests_cant": "arbitrary numbers of byproducts and exchanges", "anchors": ["ocelot/transformations/cutoff/wastes.py:waste_treatment_allocation", "ocelot/transformations/cutoff/validation.py:valid_waste_treatment_activity"]}
{"id": "C18", "title": "Recycling allocation turns the treated material into a positive input and conserves burdens", "statement": "recycling_allocation on a dataset with a single negative reference product yields datasets whose products are exactly the allocatable byproducts; the recycled material appears in every output as a technosphere input of non-negative amount, and the burden conservation law of C15 holds including for that input.", "quantifier": "every dataset accepted", "why_tests_cant": "all datasets", "anchors": ["ocelot/transformations/cutoff/wastes.py:recycling_allocation", "ocelot/transformations/cutoff/validation.py:valid_recycling_activity"]}
{"id": "C19", "title": "Combined production subdivides into single-output datasets", "statement": "combined_production returns one dataset per nonzero reference product, in order; each has that product as its only reference product, with its amount unchanged by the recalculation, and all other reference products turned into zero-amount dropped products.", "quantifier": "every dataset with distinct reference product exchanges and unique variable names, every formula set", "why_tests_cant": "all parameterised datasets", "anchors": ["ocelot/transformations/cutoff/combined.py:combined_production", "ocelot/transformations/parameterization/recalculation.py:recalculate"]}
{"id": "C20", "title": "Merging byproduct datasets adds up their exchanges", "statement": "merge_byproducts yields exactly one dataset per (activity name, product tuple) in first-appearance order, whose amount for each exchange id is the sum over the merged datasets; the grand total over datasets of each exchange id is conserved; it raises InvalidExchange if an allocatable byproduct remains.", "quantifier": "every list of datasets whose exchange ids are unique per dataset and common within a group", "why_tests_cant": "all groupings", "anchors": ["ocelot/transformations/cutoff/combined.py:merge_byproducts", "ocelot/transformations/cutoff/combined.py:add_exchanges"]}
{"id": "C21", "title": "Flipping non-allocatable byproducts changes nothing in the technosphere balance", "statement": "flip_non_allocatable_byproducts leaves no waste/recyclable byproduct, keeps every exchange (same order, names), keeps the signed net output (outputs minus inputs) of every flow name, leaves all other exchanges untouched and is idempotent.", "quantifier": "every dataset list", "why_tests_cant": "all datasets", "anchors": ["ocelot/transformations/cutoff/wastes.py:flip_non_allocatable_byproducts"]}
{"id": "C22", "title": "Non-waste markets end up with non-negative production", "statement": "After adjust_market_signs_for_allocatable_products every market activity whose reference product is not waste has a non-negative reference product amount, and datasets that are not such markets are unchanged; absolute amounts of all exchanges are unchanged.", "quantifier": "every dataset list", "why_tests_cant": "all sign patterns over unbounded exchange lists", "anchors": ["ocelot/transformations/cutoff/markets.py:adjust_market_signs_for_allocatable_products"]}
{"id": "C23", "title": "Cut-off clean-up removes exactly what it documents", "statement": "remove_consequential_exchanges keeps exactly the exchanges without a consequential=1 property in order; drop_rp_activity_links and drop_zero_amount_activity_links delete activity links exactly from reference/dropped products resp. zero-amount exchanges and change nothing else; all are idempotent and commute.", "quantifier": "every dataset list", "why_tests_cant": "universal laws over lists", "anchors": ["ocelot/transformations/cutoff/cleanup.py"]}
{"id": "C24", "title": "Every recyclable byproduct gets exactly one burden-free recycled-content dataset", "statement": "After handle_waste_outputs, for every recyclable byproduct name there is exactly one new dataset with that name, located in GLO, whose only exchange is a reference product of amount 1 with that name; no other dataset is added, existing datasets keep their order, and all recyclable byproduct names carry the Recycled Content suffix. The new dataset carries the identifiers, dates, technology level and authorship of the dataset that produces the byproduct, the last one in the input if there are several.", "quantifier": "every dataset list", "why_tests_cant": "arbitrary multiplicities of shared byproduct names", "anchors": ["ocelot/transformations/cutoff/wastes.py:rename_recyclable_content_exchanges", "ocelot/transformations/cutoff/wastes.py:create_recycled_content_datasets"]}
{"id": "C25", "title": "Recycled-content renaming round-trips", "statement": "Adding the Recycled Content suffix to a flow name and later removing it with rename_recycled_content_products_after_linking restores the original name, for every name that does not itself contain the suffix; names not ending in the suffix are untouched.", "quantifier": "every string", "why_tests_cant": "string overlap cases over all names", "anchors": ["ocelot/transformations/cutoff/wastes.py:rename_recycled_content_products_after_linking", "ocelot/transformations/cutoff/__init__.py:RC_STRING"]}
{"id": "C26", "title": "Cut-off allocation leaves only single-output datasets", "statement": "If cutoff_allocation succeeds on datasets whose reference products are all nonzero, every resulting dataset has exactly one reference product and no nonzero allocatable byproduct, and carries no allocation method label.", "quantifier": "every dataset list", "why_tests_cant": "all mixtures of allocation methods", "anchors": ["ocelot/transformations/cutoff/allocation.py:cutoff_allocation", "ocelot/wrapper.py"]}
{"id": "C27", "title": "Constrained markets survive cut-off allocation", "statement": "A dataset labelled 'constrained market' is returned by cutoff_allocation as a dataset with its conditional exchanges zeroed.", "quantifier": "every dataset list with a constrained market", "why_tests_cant": "needs the composition of the wrapper with every later allocation function", "anchors": ["ocelot/transformations/cutoff/markets.py:constrained_market_allocation", "ocelot/wrapper.py:TransformationWrapper.__call__", "ocelot/transformations/cutoff/allocation.py:cutoff_allocation"]}
{"id": "C28", "title": "Activity-link validation is exact", "statement": "check_activity_link_validity succeeds exactly when every activity link points to a dataset in the data which has exactly one production exchange with the link's flow name; otherwise it raises UnresolvableActivityLink; it never changes the data.", "quantifier": "every dataset list in which byproducts are classified, with or without repeated ids", "why_tests_cant": "all link graphs", "anchors": ["ocelot/transformations/activity_links.py:check_activity_link_validity"]}
{"id": "C29", "title": "Hard-linked volumes add up, in any order", "statement": "After add_hard_linked_production_volumes each targeted production exchange's subtracted volume is its previous value plus the sum over all non-self links to it of link amount x (biggest pv/amount ratio of the linking dataset); nothing else changes; after a successful validity check on data with unique ids the lookup and the assertion cannot fail; the result does not depend on the order in which links are processed.", "quantifier": "every link graph, every order of links", "why_tests_cant": "sum over unbounded graphs and all orders", "anchors": ["ocelot/transformations/activity_links.py:add_hard_linked_production_volumes"]}
{"id": "C30", "title": "Transforming activity volumes are reduced to at least zero", "statement": "update_transforming_activity_production_volumes sets amount to max(amount - subtracted, 0) and stores the original amount, exactly for production exchanges of transforming activities that have a subtracted volume; nothing else changes and no amount becomes negative.", "quantifier": "every dataset list", "why_tests_cant": "all values", "anchors": ["ocelot/transformations/activity_links.py:update_transforming_activity_production_volumes"]}
{"id": "C31", "title": "Parent links are redirected to the child and nothing else", "statement": "After update_activity_link_parent_child no non-production exchange links to its dataset's parent (unless the parent id is the dataset's own id), links to other datasets are unchanged, and a second application changes nothing.", "quantifier": "every dataset list", "why_tests_cant": "universal law", "anchors": ["ocelot/transformations/activity_links.py:update_activity_link_parent_child"]}
{"id": "C32", "title": "Topological containment means face inclusion", "statement": "For named locations contains(parent, child, subtract) is True exactly when every face of the child is a face of the parent and of none of the subtracted places; it is reflexive and transitive without subtract; every location is within GLO; RoW obeys the documented rules (RoW vs RoW is False, GLO contains RoW only without subtract, an empty resolved set is never contained).", "quantifier": "every topology (any location-to-faces map), all argument combinations", "why_tests_cant": "any face data, any subtract list", "anchors": ["ocelot/transformations/locations/_topology.py:Topology.contains", "ocelot/transformations/locations/_topology.py:Topology._contains"]}
{"id": "C33", "title": "contained() and contains() agree", "statement": "A named location with at least one face is in contained(parent, subtract, resolved_row) exactly when contains(parent, it, subtract, resolved_row) is True, and exclude_self removes exactly the location itself.", "quantifier": "every topology and all arguments", "why_tests_cant": "two separately written algorithms over arbitrary sets", "anchors": ["ocelot/transformations/locations/_topology.py:Topology._contained", "ocelot/transformations/locations/_topology.py:Topology._contains"]}
{"id": "C34", "title": "Rest-of-world is the exact complement", "statement": "resolve_row(others) is disjoint from every location in others and together with them covers GLO; adding locations only shrinks it; order and duplicates do not matter; RoW in the list is ignored.", "quantifier": "every topology and nonempty list", "why_tests_cant": "set law over all inputs", "anchors": ["ocelot/transformations/locations/_topology.py:Topology.resolve_row"]}
{"id": "C35", "title": "Overlap check is exact", "statement": "overlaps(group) is False exactly when the faces of all entries (counted with multiplicity) are pairwise disjoint; no_overlaps additionally rejects GLO together with anything else.", "quantifier": "every list of locations", "why_tests_cant": "inclusion-exclusion over arbitrary sets", "anchors": ["ocelot/transformations/locations/_topology.py:Topology.overlaps", "ocelot/transformations/locations/validation.py:no_overlaps"]}
{"id": "C36", "title": "Location ordering is deterministic, largest first", "statement": "ordered_dependencies returns each distinct location once, ordered by decreasing size (ties by decreasing name), independent of the order and multiplicity of the datasets; a location strictly inside another comes after it.", "quantifier": "every list of datasets, every permutation", "why_tests_cant": "all permutations", "anchors": ["ocelot/transformations/locations/_topology.py:Topology.ordered_dependencies"]}
{"id": "C37", "title": "Memoisation is invisible", "statement": "For every history of calls, the LRU-cached topology methods return what the uncached computation returns, whatever was evicted, and the cache never exceeds its maximum size.", "quantifier": "every call history, every cache size", "why_tests_cant": "unbounded call histories", "anchors": ["ocelot/transformations/locations/_topology.py:functools.lru_cache"]}
{"id": "C38", "title": "Relabelling GLO to RoW keeps total production volume", "statement": "relabel_global_to_row turns the single GLO dataset of every multi-member non-market-group activity group into RoW, sets its production volume to max(global - sum of the regions' original volumes, 0), keeps the old value as global amount, touches nothing else, keeps dataset order, raises MultipleGlobalDatasets when a group has two GLO datasets, and is idempotent; when the global volume covers the regions the group total equals the original global volume.", "quantifier": "every dataset list", "why_tests_cant": "arbitrary groups", "anchors": ["ocelot/transformations/locations/rest_of_world.py:relabel_global_to_row"]}
{"id": "C39", "title": "Markets get exactly the suppliers inside them", "statement": "After add_suppliers_to_markets a market lists exactly one supplier entry for each dataset of the supplying type with the same reference product whose region (RoW resolved against the same-named suppliers) lies inside the market's region (RoW resolved against the competing markets).", "quantifier": "every topology and dataset list accepted", "why_tests_cant": "arbitrary geographies", "anchors": ["ocelot/transformations/locations/markets.py:add_suppliers_to_markets", "ocelot/transformations/locations/markets.py:apportion_market_suppliers_to_consumers"]}
{"id": "C40", "title": "No supplier feeds two markets of the same product", "statement": "When add_suppliers_to_markets succeeds for markets, no supplying activity with a nonempty region is listed by two different markets of one product.", "quantifier": "every topology and dataset list accepted", "why_tests_cant": "depends on disjointness of arbitrary region sets", "anchors": ["ocelot/transformations/locations/markets.py:apportion_market_suppliers_to_consumers", "ocelot/transformations/locations/validation.py:no_overlaps"]}
{"id": "C41", "title": "Supplier shares add up to the market's production", "statement": "When total supplier volume is nonzero, allocate_suppliers appends one technosphere input per supplier with nonzero volume, of amount volume/total x production amount, linked to the supplier's code; the appended amounts sum exactly to the production amount; a single zero-volume supplier receives everything; several zero-volume suppliers leave the dataset unchanged; all previous exchanges are kept.", "quantifier": "every market and supplier list", "why_tests_cant": "conservation over arbitrary lists", "anchors": ["ocelot/transformations/locations/markets.py:allocate_suppliers", "ocelot/transformations/locations/markets.py:allocate_all_market_suppliers"]}
{"id": "C42", "title": "Supplier order is irrelevant", "statement": "Permuting the supplier list of a market only permutes the created input exchanges (the supplier order comes from iterating a Python set, so it varies from run to run).", "quantifier": "every permutation of every supplier list", "why_tests_cant": "all permutations", "anchors": ["ocelot/transformations/locations/markets.py:allocate_suppliers", "ocelot/transformations/locations/markets.py:apportion_market_suppliers_to_consumers"]}
{"id": "C43", "title": "Market production volume is the net supply, never negative", "statement": "After update_market_production_volumes every market's production volume is max(sum of supplier volumes - volume subtracted by activity links, 0), its original total is the sum of the suppliers' original volumes, and nothing else changes.", "quantifier": "every dataset list with supplier lists", "why_tests_cant": "arbitrary lists", "anchors": ["ocelot/transformations/locations/markets.py:update_market_production_volumes"]}
{"id": "C44", "title": "Nested market group volumes are mutually consistent", "statement": "After update_market_production_volumes(kind='market group'), whenever every market group supplying another one is ordered after it by size, each supplier entry that refers to a market group shows exactly that group's final production volume, and each group's volume is the net sum of its final supplier entries.", "quantifier": "every acyclic nesting of market groups of any depth", "why_tests_cant": "recursion of unbounded depth; order dependence", "anchors": ["ocelot/transformations/locations/markets.py:update_market_production_volumes", "ocelot/transformations/locations/market_groups.py:link_market_group_suppliers"]}
{"id": "C45", "title": "Market group suppliers do not overlap and lie inside the group", "statement": "After link_market_group_suppliers the suppliers of a market group have the same product, lie within the group's region, are pairwise disjoint in space, do not include the group itself, and every candidate market inside the group is covered by or clashes with a chosen supplier (the choice is maximal).", "quantifier": "every topology and dataset list accepted", "why_tests_cant": "greedy algorithm over arbitrary geographies", "anchors": ["ocelot/transformations/locations/market_groups.py:link_market_group_suppliers"]}
{"id": "C46", "title": "Consumer linking conserves inputs and links to the right product", "statement": "If link_consumers_to_markets succeeds, for each dataset and flow name the total technosphere input amount is unchanged, exchanges already linked and non-technosphere exchanges are untouched, and each newly set code is the code of a market or market group whose reference product is that flow.", "quantifier": "every dataset list", "why_tests_cant": "conservation over arbitrary data; loop-carried state", "anchors": ["ocelot/transformations/locations/linking.py:link_consumers_to_markets", "ocelot/transformations/locations/markets.py:allocate_suppliers"]}
{"id": "C47", "title": "Consumer linking is geographically sound", "statement": "Markets or market groups chosen inside a consumer's region are pairwise disjoint and contained in it; if none is inside, the one chosen contains the consumer and no candidate containing the consumer is smaller.", "quantifier": "every topology and dataset list", "why_tests_cant": "arbitrary geographies", "anchors": ["ocelot/transformations/locations/linking.py:link_consumers_to_markets"]}
{"id": "C48", "title": "Unlinked inputs are removed at the end", "statement": "After log_and_delete_unlinked_exchanges no technosphere input without a code remains.", "quantifier": "every dataset list", "why_tests_cant": "universal over data", "anchors": ["ocelot/transformations/locations/linking.py:log_and_delete_unlinked_exchanges"]}
{"id": "C49", "title": "Codes are unique", "statement": "If add_unique_codes succeeds, all dataset codes are pairwise different and every code is the hash of the dataset's identifying attributes; it raises IdenticalDatasets exactly when two datasets have the same lower-cased concatenated attributes (assuming no hash collision); two datasets that differ in some attribute are not rejected.", "quantifier": "every dataset list, every hash function", "why_tests_cant": "all pairs of datasets", "anchors": ["ocelot/transformations/identifying.py:add_unique_codes", "ocelot/transformations/utils.py:activity_hash"]}
{"id": "C50", "title": "Activity links become codes of the linked activity", "statement": "actualize_activity_links sets code on exactly those activity links for which the linked id has exactly one dataset with that reference product, to that dataset's code; add_reference_product_codes gives every reference product its own dataset's code.", "quantifier": "every dataset list", "why_tests_cant": "all link graphs", "anchors": ["ocelot/transformations/locations/linking.py:actualize_activity_links", "ocelot/transformations/locations/linking.py:add_reference_product_codes"]}
{"id": "C51", "title": "Only empty RoW datasets are purged", "statement": "delete_global_with_zero_pv_when_regional_present removes only RoW datasets of the given kind with zero or unknown original production volume whose product has at least one other dataset of that kind, keeps all others in order, and leaves at least one dataset of that kind for each product.", "quantifier": "every dataset list", "why_tests_cant": "all groupings", "anchors": ["ocelot/transformations/locations/markets.py:delete_global_with_zero_pv_when_regional_present"]}
{"id": "C52", "title": "Recycled-content inputs are linked to the unique recycled-content producer", "statement": "link_consumers_to_recycled_content_activities sets a code on exactly those unlinked technosphere inputs whose flow name is the reference product of exactly one recycled-content transforming activity, namely that activity's code, and changes nothing else.", "quantifier": "every dataset list", "why_tests_cant": "all data", "anchors": ["ocelot/transformations/locations/linking.py:link_consumers_to_recycled_content_activities"]}
{"id": "C53", "title": "Variable names stay unique", "statement": "variable_names_are_unique accepts exactly the datasets in which no variable name occurs twice among exchanges, volumes, properties and parameters; uniqueness still holds after fix_ecoinvent_parameters.", "quantifier": "every dataset list", "why_tests_cant": "all datasets", "anchors": ["ocelot/transformations/parameterization/validation.py:variable_names_are_unique", "ocelot/transformations/parameterization/python_compatibility.py:lowercase_all_parameters"]}
{"id": "C54", "title": "Moving production-volume variables keeps all named parameters", "statement": "create_pv_parameters leaves no variable or formula in any production volume, keeps the multiset of (variable, amount, formula) of all named parameters, and leaves exchange and volume amounts unchanged.", "quantifier": "every dataset", "why_tests_cant": "all datasets", "anchors": ["ocelot/transformations/parameterization/production_volumes.py:create_pv_parameters"]}
{"id": "C55", "title": "Rewriting if(a;b;c) terminates and preserves meaning", "statement": "The nested-if rewriter terminates on every string, returns a string without 'if(' or fails, and on every well-formed (arbitrarily nested) ecoinvent if-expression produces exactly the python conditional expression of the same tree.", "quantifier": "every string; every formula tree of any depth", "why_tests_cant": "unbounded nesting; termination", "anchors": ["ocelot/transformations/parameterization/python_compatibility.py:find_replace_nested_if_statements", "ocelot/transformations/parameterization/python_compatibility.py:find_if_boundaries", "ocelot/transformations/parameterization/python_compatibility.py:replace_if_statement"]}
{"id": "C56", "title": "Recalculation solves the parameter equations, independent of evaluation order", "statement": "recalculate gives every parameterised object the value of its formula under the final values of all named parameters (zero on division by zero), the result is the same for every admissible evaluation order, objects without formula keep their amounts, and recalculating again changes no amount, variable or formula (an uncertainty may be repaired once more, see C06; without lognormal distributions nothing changes at all).", "quantifier": "every acyclic formula system with unique names, every valid evaluation order", "why_tests_cant": "all systems and all orders", "anchors": ["ocelot/transformations/parameterization/recalculation.py:recalculate", "ocelot/transformations/parameterization/recalculation.py:TolerantParameterSet.evaluate"]}
{"id": "C57", "title": "Implicit references resolve to the referenced object", "statement": "replace_implicit_references gives a referenced exchange or parameter a variable exactly when it had none, never changes an existing variable name, and two references to the same object are replaced by the same variable.", "quantifier": "every dataset", "why_tests_cant": "all reference patterns", "anchors": ["ocelot/transformations/parameterization/implicit_references.py:replace_implicit_references"]}
{"id": "C58", "title": "Reserved-word repair does not touch longer identifiers", "statement": "check_and_fix_formula uppercases reserved words only where they are whole identifiers.", "quantifier": "every formula", "why_tests_cant": "all strings", "anchors": ["ocelot/transformations/parameterization/python_compatibility.py:check_and_fix_formula"]}
{"id": "C59", "title": "Collections flatten and compose", "statement": "A Collection built from arbitrarily nested functions, lists and Collections holds the leaf functions in left-to-right order, and calling it is applying them one after another; nesting does not matter; insert, delete and set behave as on the flat list.", "quantifier": "every nesting of any depth, every data value", "why_tests_cant": "unbounded nesting", "anchors": ["ocelot/collection.py:Collection", "ocelot/collection.py:unwrap_functions"]}
{"id": "C60", "title": "TransformationWrapper is an order-preserving filtered flat-map", "statement": "A wrapped function is applied to exactly the datasets passing the filter, its results replace the dataset in place, all other datasets pass through unchanged and in order; the first failing dataset aborts the whole step.", "quantifier": "every function, filter and dataset list", "why_tests_cant": "all inputs", "anchors": ["ocelot/wrapper.py:TransformationWrapper"]}
{"id": "C61", "title": "Save strategies select exactly the documented indices", "statement": "SaveStrategy('a:b:c') answers True exactly for a, a+c, ... <= b; SaveStrategy('a:b') for a..b inclusive; SaveStrategy(n) for multiples of n and is rejected for n < 1; the default is every five functions.", "quantifier": "every strategy string of integers and every index", "why_tests_cant": "unbounded integers", "anchors": ["ocelot/results.py:SaveStrategy"]}
{"id": "C62", "title": "A model run applies the configured functions in order, once each", "statement": "For any configuration accepted by validate_configuration, system_model applies its leaf functions in order to the data, numbers them 0,1,2,..., logs a start and an end record for each with the right dataset counts, saves an intermediate result exactly at the indices chosen by the save strategy, and returns the final data; a failing function stops the run before any later function starts.", "quantifier": "every configuration (flat or nested), every save strategy, every failure point", "why_tests_cant": "all configurations and failure points", "anchors": ["ocelot/model.py:system_model", "ocelot/model.py:apply_transformation", "ocelot/utils.py:validate_configuration"]}
{"id": "C63", "title": "The extraction cache never serves stale data", "statement": "For every history of file creations, modifications, deletions and extractions with a clock that advances between operations, extract_directory(use_cache=True) returns the same data as an uncached extraction of the current files.", "quantifier": "every history of file operations and extractions", "why_tests_cant": "unbounded histories", "anchors": ["ocelot/io/__init__.py:extract_directory", "ocelot/filesystem.py:check_cache_directory"]}
{"id": "C64", "title": "Every run's log can be turned into a report", "statement": "For every log written by a complete model run whose table/list entries match the function's declaration, report generation succeeds, lists the functions in execution order and assigns each table row to the function that logged it.", "quantifier": "every run log", "why_tests_cant": "unbounded logs", "anchors": ["ocelot/report.py:HTMLReport.read_log", "ocelot/report.py:HTMLReport.handle_line", "ocelot/report.py:jsonize"]}
{"id": "C65", "title": "Clean-up deletes only old run directories", "statement": "cleanup_data_directory removes exactly the directories whose creation time is more than one week before now and never a file.", "quantifier": "every directory content and time", "why_tests_cant": "all directory states", "anchors": ["ocelot/io/cleanup.py:cleanup_data_directory"]}
{"id": "C66", "title": "Brightway2 export preserves the inventory matrix", "statement": "translate_activity keeps, for each linked code, the signed technosphere net (production positive, inputs negative) of the dataset and for each environment flow the amount; zero-amount exchanges are dropped; unlinked refinery gas is dropped; dropped products with zero amount never cause an error.", "quantifier": "every linked dataset", "why_tests_cant": "all datasets", "anchors": ["ocelot/io/brightway2.py:Brightway2Converter"]}
{"id": "C67", "title": "Extraction order and conditional flag", "statement": "extract_ecospold2_directory returns the datasets of all .spold files (case-insensitive) in listing order, the same with and without multiprocessing; an exchange is flagged conditional exactly when it is a negative byproduct with an activity link in a market activity; production volumes are extracted exactly for reference products and byproducts.", "quantifier": "every directory and every XML content", "why_tests_cant": "all inputs", "anchors": ["ocelot/io/extract_ecospold2.py"]}
{"id": "C68", "title": "Only the best technology supplies a consequential market", "statement": "After prune_suppliers_by_technology_level every market with suppliers keeps a nonempty sublist, in order, all of one technology level, and no removed supplier had a better level; it fails exactly when a market has suppliers but none with a level in the hierarchy.", "quantifier": "every dataset list", "why_tests_cant": "all supplier lists", "anchors": ["ocelot/transformations/consequential/market_linking.py:prune_suppliers_by_technology_level"]}
{"id": "C69", "title": "Constrained-market handling keeps product balances and single outputs", "statement": "handle_constrained_markets turns each conditional byproduct into an input and exchanges the roles of the target's reference product and the matching input; for every dataset and flow the signed net output is unchanged, and the target still has exactly one reference product.", "quantifier": "every dataset list in which conditional exchanges are byproducts, as extraction makes them", "why_tests_cant": "all link graphs", "anchors": ["ocelot/transformations/consequential/constrained_markets.py:handle_constrained_markets"]}
{"id": "C70", "title": "Byproduct substitution check is exact; activity links to constrained markets are removed", "statement": "ensure_byproducts_have_alternative_production succeeds exactly when every byproduct name is some dataset's reference product; delete_activity_links_to_constrained_markets deletes exactly the activity links that point to constrained activities.", "quantifier": "every dataset list", "why_tests_cant": "all data", "anchors": ["ocelot/transformations/consequential/byproducts.py", "ocelot/transformations/consequential/constrained_markets.py:delete_activity_links_to_constrained_markets"]}
{"id": "C71", "title": "The cut-off system model returns linked single-output datasets", "statement": "If the cut-off configuration runs to completion, every returned dataset has exactly one reference product, its amount is +1 or -1 (up to the 1e-14 tolerance), all dataset codes are unique and every reference product carries its dataset's code.", "quantifier": "every input dataset list", "why_tests_cant": "composition of some fifty functions over all inputs", "anchors": ["ocelot/configuration.py:cutoff_config", "ocelot/model.py:system_model"]}
{"id": "C72", "title": "The two cut-off configurations are the same model", "statement": "Running 'cutoff' and 'cutoff_ecoinvent_row' on the same data gives the same result, and every configured function list is flat, nonempty and callable.", "quantifier": "every input", "why_tests_cant": "all inputs", "anchors": ["ocelot/configuration.py", "ocelot/transformations/locations/__init__.py"]}
{"id": "C73", "title": "Dropping empty RoW markets removes nothing else", "statement": "drop_zero_pv_row_datasets removes exactly the market activities located in RoW whose production volume is known and zero, and keeps all others in order.", "quantifier": "every dataset list", "why_tests_cant": "all dataset lists", "anchors": ["ocelot/transformations/locations/rest_of_world.py:drop_zero_pv_row_datasets"]}
{"id": "C74", "title": "Markets get their recycled content suppliers", "statement": "After add_recycled_content_suppliers_to_markets every market keeps the suppliers it had and gets exactly one additional entry for each recycled content activity of its product whose region lies inside the market; all other data is unchanged.", "quantifier": "every topology and dataset list accepted, at most one RoW activity per name", "why_tests_cant": "arbitrary geographies", "anchors": ["ocelot/transformations/locations/markets.py:add_recycled_content_suppliers_to_markets", "ocelot/transformations/locations/markets.py:apportion_market_suppliers_to_consumers"]}
{"id": "C75", "title": "White-listed deletion removes exactly the listed global markets", "statement": "delete_whitelisted_zero_pv_market_datsets removes exactly the GLO market activities whose name is on its list and keeps all other datasets in order; volumes play no role.", "quantifier": "every dataset list", "why_tests_cant": "the effect on all datasets that are not on the list is a universal statement", "anchors": ["ocelot/transformations/locations/markets.py:delete_whitelisted_zero_pv_market_datsets"]}
{"id": "C76", "title": "Confidential activities get a unit volume", "statement": "assign_fake_pv_to_confidential_datasets gives every listed transforming activity a reference production volume of exactly one, and changes nothing else.", "quantifier": "every dataset list accepted", "why_tests_cant": "non-interference with all other datasets and exchanges", "anchors": ["ocelot/transformations/locations/markets.py:assign_fake_pv_to_confidential_datasets"]}
{"id": "C77", "title": "Market group checks", "statement": "check_no_row_market_groups accepts a dataset list exactly if no market group is located in RoW, and changes nothing; link_market_group_suppliers never succeeds when two market groups of one product have different names.", "quantifier": "every dataset list", "why_tests_cant": "universal statement over all lists", "anchors": ["ocelot/transformations/locations/market_groups.py:check_no_row_market_groups", "ocelot/transformations/locations/market_groups.py:link_market_group_suppliers"]}
{"id": "C78", "title": "Power clauses become python powers", "statement": "find_power_clause terminates on every formula, and in a formula made of power(base;exponent) clauses over numbers and other text it replaces each clause by the python power of the same two numbers and leaves the other text alone.", "quantifier": "every formula; every sequence of clauses and texts", "why_tests_cant": "greedy regular expressions and global text replacement interact across arbitrarily many clauses", "anchors": ["ocelot/transformations/parameterization/python_compatibility.py:find_power_clause"]}
{"id": "C79", "title": "A run's log file is its own", "statement": "The log file in a run's output directory contains the records of that run and no others, also when several models are run in one python process.", "quantifier": "every sequence of runs in one process", "why_tests_cant": "the property is about the state that one run leaves to later ones, over every number of runs", "anchors": ["ocelot/logger.py:create_log", "ocelot/logger.py:create_detailed_log", "ocelot/model.py:system_model"]}
{"id": "C80", "title": "Constrained-market handling leaves every dataset a reference production volume", "statement": "If every reference product has a production volume before handle_constrained_markets, every reference product has one afterwards, so that later linking by production volume finds it.", "quantifier": "every dataset list accepted", "why_tests_cant": "all link graphs; the missing field is only read in later functions", "anchors": ["ocelot/transformations/consequential/constrained_markets.py:handle_constrained_markets"]}
{"id": "C81", "title": "Undefined technology levels do not stop the consequential model", "statement": "Transforming activities whose technology level is undefined are treated as current, so that markets supplied only by them still have suppliers after pruning.", "quantifier": "every dataset list", "why_tests_cant": "composition of two functions over all supplier lists", "anchors": ["ocelot/transformations/consequential/technology_levels.py:switch_undefined_to_current", "ocelot/transformations/consequential/market_linking.py:prune_suppliers_by_technology_level", "ocelot/configuration.py:consequential_config"]}
{"id": "C82", "title": "Pedigree scores of extracted data are used", "statement": "The pedigree matrix that extraction reads for a number is the one that the repair of its variance and adjust_pedigree_matrix_time work with, so that adjusting extracted data to a later year changes its temporal score.", "quantifier": "every extracted dataset and every number in it", "why_tests_cant": "two modules that agree on the place of the matrix in hand-written test data and not in extracted data", "anchors": ["ocelot/io/extract_ecospold2.py:extract_uncertainty", "ocelot/transformations/uncertainty/pedigree.py:adjust_pedigree_matrix_time", "ocelot/transformations/uncertainty/distributions.py"]}
{"id": "C83", "title": "Uncertainty is extracted faithfully", "statement": "extract_uncertainty takes the first of the known distributions, renames the attributes of the format to the data format without changing values, and gives the five pedigree scores; without a matrix all scores are 5 for lognormal and normal distributions.", "quantifier": "every XML element", "why_tests_cant": "all attribute combinations of eight distributions", "anchors": ["ocelot/io/extract_ecospold2.py:extract_uncertainty", "ocelot/io/extract_ecospold2.py:extract_pedigree_matrix", "ocelot/io/ecospold2_meta.py:UNCERTAINTY_MAPPING"]}
{"id": "C84", "title": "Identifiers of datasets are checked exactly", "statement": "ensure_ids_are_unique returns the data unchanged if no two datasets have the same id and raises IdenticalDatasets otherwise.", "quantifier": "every dataset list", "why_tests_cant": "all lists, with a repetition at any pair of positions", "anchors": ["ocelot/transformations/validation.py:ensure_ids_are_unique"]}
{"id": "C85", "title": "Market validation is exact", "statement": "validate_markets returns the data unchanged exactly if every market activity has exactly one reference product exchange and every other exchange with the reference product's name has an activity link; otherwise it raises InvalidMarket (wrong number of reference products) or InvalidMarketExchange (own consumption), and nothing else.", "quantifier": "every dataset list, every number and order of exchanges", "why_tests_cant": "all dataset lists and exchange orders", "anchors": ["ocelot/transformations/validation.py:validate_markets", "ocelot/transformations/validation.py:ensure_markets_only_have_one_reference_product", "ocelot/transformations/validation.py:ensure_markets_dont_consume_their_ref_product"]}
{"id": "C86", "title": "Allocatable byproducts get production volumes in proportion to the reference product", "statement": "add_pv_to_allocatable_byproducts gives every allocatable byproduct whose production volume is zero the volume |amount| times the largest absolute ratio of production volume to amount among the reference products with an amount; all other exchanges and all other data stay as they are. It fails only for unclassified byproducts, missing volumes, or when there is an allocatable byproduct but no reference product with an amount. Afterwards such a volume is zero only if the byproduct's amount or all reference volumes are zero.", "quantifier": "every dataset list", "why_tests_cant": "all combinations of reference products, signs and byproducts", "anchors": ["ocelot/transformations/production_volumes.py:add_pv_to_allocatable_byproducts", "ocelot/transformations/utils.py:get_biggest_pv_to_exchange_ratio"]}
{"id": "C87", "title": "After production volume clean-up volumes are complete and plain numbers", "statement": "pv_cleanup accepts only data in which every production exchange has a production volume (InvalidExchange otherwise). Afterwards every production exchange has a production volume, no volume has a formula or variable, exchanges are otherwise unchanged, and each former variable of a volume is the variable of a new dataset parameter with the volume's formula and amount.", "quantifier": "every dataset list", "why_tests_cant": "composition of three passes over all datasets", "anchors": ["ocelot/transformations/__init__.py:pv_cleanup", "ocelot/transformations/validation.py:ensure_production_exchanges_have_production_volume", "ocelot/transformations/parameterization/production_volumes.py:create_pv_parameters"]}
{"id": "C88", "title": "The report of missing mandatory properties is exact", "statement": "ensure_mandatory_properties changes nothing, and its table has a row for exactly those exchanges which have properties but lack some of the six mandatory ones; the row names exactly the missing ones, sorted.", "quantifier": "every dataset list", "why_tests_cant": "all subsets of properties", "anchors": ["ocelot/transformations/validation.py:ensure_mandatory_properties"]}
{"id": "C89", "title": "Final clean-up functions do exactly what they say", "statement": "ensure_all_datasets_have_production_volume passes exactly if every dataset has a single reference product with a nonzero production volume. deparameterize leaves no formula, variable, parameter or property anywhere and changes no amount.", "quantifier": "every dataset", "why_tests_cant": "all datasets", "anchors": ["ocelot/transformations/cleanup.py"]}
{"id": "C90", "title": "Links lead to datasets of the result", "statement": "If the cut-off configuration runs to completion on extracted datasets, the code of every exchange of the result is the code of a dataset of the result.", "quantifier": "every list of extracted datasets, every topology, every order of sets", "why_tests_cant": "a composition of seventeen functions that set codes, after one that assigns them and among some that delete datasets", "anchors": ["ocelot/configuration.py:cutoff_config", "ocelot/transformations/locations/__init__.py:link_markets_by_pv", "ocelot/transformations/locations/markets.py:delete_global_with_zero_pv_when_regional_present"]}
{"id": "C91", "title": "The consequential system model returns linked single-output datasets", "statement": "If the consequential configuration runs to completion, every returned dataset has exactly one reference product of amount +1 or -1 (up to the 1e-14 tolerance), all dataset codes are unique, and the code of every exchange is the code of a dataset of the result.", "quantifier": "every list of extracted datasets", "why_tests_cant": "composition of some forty functions over all inputs", "anchors": ["ocelot/configuration.py:consequential_config", "ocelot/transformations/consequential/__init__.py:link_markets_by_technology_level"]}
{"id": "C92", "title": "Results can be traced to their source", "statement": "Every dataset returned by one of the three system models carries the identifier, the file path, the dates, the technology level and the other metadata of one of the given datasets.", "quantifier": "every configuration and every input", "why_tests_cant": "composition of all functions over all inputs", "anchors": ["ocelot/configuration.py", "ocelot/model.py:system_model"]}
{"id": "C93", "title": "The cut-off model keeps inventories", "statement": "If the cut-off configuration runs to completion on extracted datasets, everything after the datasets have been allocated and coded only scales them: for each returned dataset there is one positive factor (and for markets possibly a sign) by which the net output of every product and the total of every other flow (name, type and compartment) differ from those of the coded dataset. Names lose only the recycled content suffix, and of markets the flows of their own product are not counted.", "quantifier": "every list of extracted datasets for which the inputs of each coded dataset have different ids (or refinery gas is sold or unused), every topology, every order of sets", "why_tests_cant": "composition of seventeen functions that append, split, relink, rename, flip and scale exchanges, over all inputs", "anchors": ["ocelot/configuration.py:cutoff_config", "ocelot/transformations/locations/linking.py", "ocelot/transformations/locations/markets.py", "ocelot/transformations/utils.py"]}
{"id": "C94", "title": "Markets of the result are balanced", "statement": "If the cut-off configuration runs to completion, each market or market group of the result takes in exactly as much of its product as it puts out, or has no inputs of it, provided it had no other exchanges of its product.", "quantifier": "every list of extracted datasets, with the same assumption on ids", "why_tests_cant": "all numbers and volumes of suppliers, through all later functions", "anchors": ["ocelot/configuration.py:cutoff_config", "ocelot/transformations/locations/markets.py:allocate_suppliers", "ocelot/transformations/locations/markets.py:allocate_all_market_suppliers"]}
{"id": "C95", "title": "Links of the result lead to the right product", "statement": "If the cut-off configuration runs to completion, the dataset that a linked exchange of the result leads to has a product with the name of the exchange.", "quantifier": "every list of extracted datasets, every exchange of the result", "why_tests_cant": "all compositions of the functions that set codes or change names", "anchors": ["ocelot/configuration.py:cutoff_config", "ocelot/transformations/locations/linking.py:link_consumers_to_markets", "ocelot/transformations/locations/linking.py:actualize_activity_links"]}
{"id": "C96", "title": "The consequential model keeps inventories", "statement": "If the consequential configuration runs to completion on extracted datasets, everything after the datasets have been coded only scales them: for each returned dataset there is one positive factor by which the total of every flow (name, type and compartment) differs from that of the coded dataset. Of markets, the inputs of their own product are not counted.", "quantifier": "every list of extracted datasets for which the inputs of each coded dataset have different ids (or refinery gas is sold or unused), every topology, every order of sets", "why_tests_cant": "composition of eleven functions that append, split, relink and scale exchanges, over all inputs", "anchors": ["ocelot/configuration.py:consequential_config", "ocelot/transformations/locations/linking.py", "ocelot/transformations/locations/markets.py", "ocelot/transformations/utils.py"]}
{"id": "C97", "title": "Markets of the consequential result are balanced", "statement": "If the consequential configuration runs to completion, each market of the result takes in exactly as much of its product as it puts out, or has no inputs of it, provided it had no inputs of its product before the linking; market groups get no inputs of their product.", "quantifier": "every list of extracted datasets, with the same assumption on ids", "why_tests_cant": "all numbers, volumes and technology levels of suppliers, through all later functions", "anchors": ["ocelot/configuration.py:consequential_config", "ocelot/transformations/locations/markets.py:allocate_suppliers", "ocelot/transformations/locations/markets.py:allocate_all_market_suppliers"]}
{"id": "C98", "title": "Links of the consequential result lead to the right product in the result", "statement": "If the consequential configuration runs to completion, a linked exchange of the result leads to a dataset of the result whose product has the name of the exchange.", "quantifier": "every list of extracted datasets, every exchange of the result", "why_tests_cant": "all compositions of the functions that set codes or change names or delete datasets", "anchors": ["ocelot/configuration.py:consequential_config", "ocelot/transformations/locations/linking.py:link_consumers_to_markets", "ocelot/transformations/locations/linking.py:actualize_activity_links"]}
{"id": "C99", "title": "Safe file names", "statement": "safe_filename turns any text into a file name without white space in which every ASCII character is a letter, a digit, an underscore, a dash or a dot, that ends with a dot and the md5 hash of the original text; texts with different hashes get different names.", "quantifier": "every text", "why_tests_cant": "all texts, including other scripts and control characters", "anchors": ["ocelot/filesystem.py:safe_filename", "ocelot/filesystem.py"]}
{"id": "C100", "title": "Files of a run", "statement": "A run whose functions all succeed leaves in its output directory exactly the logs, the intermediate result after each function that the saving strategy chooses, the followed datasets after each function (if there are any) and the final result; each holds the data of that moment and none overwrites another.", "quantifier": "every list of functions, every saving strategy, every text to follow without a directory separator", "why_tests_cant": "all combinations of functions and strategies, names of functions as arbitrary texts", "anchors": ["ocelot/model.py:system_model", "ocelot/model.py:apply_transformation", "ocelot/results.py:SaveStrategy", "ocelot/filesystem.py:save_intermediate_result"]}
{"id": "C101", "title": "Following one dataset", "statement": "With follow set to the file path of a dataset, a run succeeds as without it and saves the states of this dataset, and of no other.", "quantifier": "every file path, every list of datasets and functions", "why_tests_cant": "all file paths and lists of datasets", "anchors": ["ocelot/model.py:apply_transformation", "ocelot/filesystem.py:save_intermediate_result"]}
{"id": "C102", "title": "Caches of several source directories", "statement": "The cache of one source directory is not affected by anything done with other source directories: extraction from a directory gives its current content, whatever was extracted from others before or after.", "quantifier": "every interleaving of changes and extractions in any number of directories", "why_tests_cant": "all histories over any number of directories", "anchors": ["ocelot/filesystem.py:cache_data", "ocelot/filesystem.py:check_cache_directory", "ocelot/filesystem.py:get_cache_filepath_for_data_path"]}
{"id": "C103", "title": "Extracted data satisfy the internal schema", "statement": "Every dataset that is valid by the ecospold2 schema is extracted to data that pass the internal validation, and the validated data are those that the model works on.", "quantifier": "every ecospold2 dataset", "why_tests_cant": "all documents of the ecospold2 schema, with all optional parts", "anchors": ["ocelot/io/validate_internal.py:dataset_schema", "ocelot/io/extract_ecospold2.py:extract_ecospold2_dataset"]}
{"id": "C104", "title": "Internal validation reports every invalid dataset", "statement": "validate_directory reports no errors exactly if all datasets satisfy the internal schema; otherwise it reports each dataset that does not, and their number.", "quantifier": "every list of extracted datasets", "why_tests_cant": "all lists of datasets and error messages", "anchors": ["ocelot/io/validate_ecospold2.py:validate_directory"]}
{"id": "C105", "title": "Repairs of known data errors", "statement": "The functions that repair known errors of ecoinvent change exactly what they name: empty exchanges of refinery gas leave petroleum refineries, one transport gets another location, links to one dataset missing from version 3.5 are removed, and in four activities a text in formulas is replaced by one with the same value; everything else is left as it is.", "quantifier": "every list of datasets", "why_tests_cant": "all datasets, names, links and formulas; also formulas that hold the text several times", "anchors": ["ocelot/transformations/parameterization/known_ecoinvent_issues.py:fix_specific_ecoinvent_issues", "ocelot/transformations/parameterization/known_ecoinvent_issues.py:fix_known_bad_formula_strings", "ocelot/transformations/locations/cleanup.py:correct_natural_gas_pipeline_location", "ocelot/transformations/activity_links.py:fix_35_activity_links"]}
{"id": "C106", "title": "Nothing is lost or counted twice in the cut-off model", "statement": "Take an activity of the source data that is not a market and has at most one reference product with an amount, and all datasets that the cut-off model makes of it, each as many times as is needed for the amounts of products that the activity states. Together they have exactly the emissions, resources, inputs and wastes of the activity (without its consequential exchanges), before linking; and after the whole model they have exactly its emissions and resources.", "quantifier": "every list of extracted datasets for which the model runs, every such activity whose production exchanges have different ids, every flow; after linking, with the assumption of C93 on the ids of inputs", "why_tests_cant": "all numbers of products, kinds of allocation, prices and amounts, through some forty functions", "anchors": ["ocelot/configuration.py:cutoff_config", "ocelot/transformations/cutoff/economic.py:economic_allocation", "ocelot/transformations/cutoff/wastes.py:recycling_allocation", "ocelot/transformations/cutoff/wastes.py:waste_treatment_allocation", "ocelot/transformations/utils.py:choose_reference_product_exchange"]}
{"id": "C107", "title": "Emissions and resources in the consequential model", "statement": "The consequential model makes exactly one dataset of each activity of the source data that is not a market and has at most one reference product. It has exactly the emissions and resources of the activity; the dataset that is returned has them divided by one number, by which its product is divided as well.", "quantifier": "every list of extracted datasets for which the model runs and in which conditional exchanges are not emissions or resources, every such activity, every emission and resource; after linking, with the assumption of C96 on the ids of inputs", "why_tests_cant": "all lists of datasets and flows, through some thirty functions", "anchors": ["ocelot/configuration.py:consequential_config", "ocelot/transformations/consequential/constrained_markets.py:handle_constrained_markets"]}
{"id": "C108", "title": "Results do not depend on the order of sets", "statement": "Two processes that run a system model with the same settings on the same data, but iterate over sets in different orders (as Python does with different hash seeds) and evaluate variables in different orders (each after the variables that it uses), either both fail or return the same datasets, in the same order and with the same values, and differ only in the order of the exchanges and of the suppliers of a dataset.", "quantifier": "every list of extracted datasets, every pair of iteration orders for every set, every pair of admissible evaluation orders, with exact arithmetic and the same identifiers for new parameters; both system models", "why_tests_cant": "all hash seeds; the order of suppliers passes through some fifteen functions", "anchors": ["ocelot/configuration.py:cutoff_config", "ocelot/configuration.py:consequential_config", "ocelot/transformations/locations/markets.py:add_suppliers_to_markets", "ocelot/transformations/locations/markets.py:add_recycled_content_suppliers_to_markets", "ocelot/transformations/parameterization/recalculation.py:recalculate"]}
{"id": "C109", "title": "Results can be exported to Brightway2", "statement": "If a system model runs to the end on datasets with dates, technology levels and compartments, its result can be exported to Brightway2, and the exported database is square: activities have different codes, each has exactly one production exchange, of its own code and of amount one or minus one, and every other technosphere exchange refers to an exported activity.", "quantifier": "every list of extracted datasets on which a system model runs to the end, every database name; both system models", "why_tests_cant": "composition of some forty functions and of the export, over all inputs", "anchors": ["ocelot/configuration.py:cutoff_config", "ocelot/configuration.py:consequential_config", "ocelot/io/brightway2.py:Brightway2Converter", "ocelot/transformations/identifying.py:add_unique_codes"]}
{"id": "C110", "title": "Results do not depend on the order of the files", "statement": "The order in which a directory lists its files, and so the order in which datasets are given to a system model, has no influence on the result: runs on the same datasets in two orders return the same datasets, up to their order and the order of exchanges and suppliers in each.", "quantifier": "every list of extracted datasets on which the cut-off or the consequential model runs to the end, every permutation of it, every iteration order of sets", "why_tests_cant": "all permutations of all lists, through some sixty functions of which many look at the first or last of a group", "anchors": ["ocelot/io/extract_ecospold2.py:extract_ecospold2_directory", "ocelot/configuration.py:cutoff_config", "ocelot/configuration.py:consequential_config", "ocelot/transformations/consequential/constrained_markets.py:handle_constrained_markets", "ocelot/transformations/cutoff/wastes.py:create_recycled_content_datasets", "ocelot/transformations/locations/markets.py:delete_global_with_zero_pv_when_regional_present", "ocelot/transformations/locations/linking.py:link_consumers_to_markets"]}
{"id": "C111", "title": "Labelled datasets satisfy the internal schema", "statement": "A dataset that satisfies the internal schema still does after the label of its allocation method, which is optional in the schema, has been added.", "quantifier": "every dataset that satisfies the schema, every dataset with classified byproducts", "why_tests_cant": "all datasets; schema and labels are in modules that do not know each other", "anchors": ["ocelot/io/validate_internal.py:valid_allocation_method", "ocelot/transformations/cutoff/allocation.py:choose_allocation_method"]}
{"id": "C112", "title": "Consistent databases are processed without error", "statement": "The cut-off model runs to the end, without raising an error, on every consistent database of activities with one reference product, whose products have production volumes and whose distributions are complete: ids are unique, activities with several products can be divided (products with different names, amounts other than zero and, unless a waste is treated, prices and revenues), markets have no byproducts other than wastes, activities with recyclable byproducts have dates, places are known, markets for the same product and datasets of the same activity do not overlap, market groups cover a market, activity links lead to datasets with the right product, and every input of the datasets after allocation is sold by a market or has an activity link.", "quantifier": "every list of extracted datasets that is consistent in this sense, of any size, every well-formed topology, every iteration order of sets; both configurations of the cut-off model", "why_tests_cant": "composition of some forty functions that can each raise errors, over all consistent databases", "anchors": ["ocelot/configuration.py:cutoff_config", "ocelot/configuration.py:cutoff_config_ecoinvent_row", "ocelot/transformations/locations/markets.py:add_suppliers_to_markets", "ocelot/transformations/activity_links.py:add_hard_linked_production_volumes", "ocelot/transformations/cutoff/wastes.py:flip_non_allocatable_byproducts", "ocelot/transformations/locations/linking.py:link_consumers_to_markets"]}
{"id": "C113", "title": "Consistent databases without constrained markets are processed without error by the consequential model", "statement": "The consequential model runs to the end, without raising an error, on every consistent database of activities that have one product with a production volume, in which no market is constrained, every byproduct is the product of some activity, and every activity that is not a market has one of the five technology levels: ids are unique, places are known, markets for the same product and datasets of the same activity do not overlap, market groups cover a market, and every input is sold by a market.", "quantifier": "every list of extracted datasets that is consistent in this sense, of any size, every well-formed topology, every iteration order of sets", "why_tests_cant": "composition of some thirty functions that can each raise errors, over all consistent databases", "anchors": ["ocelot/configuration.py:consequential_config", "ocelot/transformations/consequential/market_linking.py:prune_suppliers_by_technology_level", "ocelot/transformations/consequential/byproducts.py:ensure_byproducts_have_alternative_production", "ocelot/transformations/consequential/constrained_markets.py:delete_activity_links_to_constrained_markets", "ocelot/transformations/locations/markets.py:add_suppliers_to_markets", "ocelot/transformations/production_volumes.py:add_pv_to_allocatable_byproducts"]}
{"id": "C114", "title": "An interrupted extraction does no harm later", "statement": "After any history of changes of a source directory and of extractions from it, any of which may have been interrupted at any moment, extract_directory with the cache returns the data of the files as they are now.", "quantifier": "every history of changes, completed extractions and extractions interrupted after any number of bytes of the cache file, with an advancing clock", "why_tests_cant": "all crash points in all histories", "anchors": ["ocelot/io/__init__.py:extract_directory", "ocelot/filesystem.py:cache_data", "ocelot/filesystem.py:check_cache_directory", "ocelot/filesystem.py:get_from_cache"]}
{"id": "C115", "title": "Simultaneous extractions of the same directory leave a usable cache", "statement": "If several programs extract the same directory at the same time, then once all of them have finished the cache file holds the data of one of them, whatever the order of their writes.", "quantifier": "every number of programs, every schedule of opening, writing and closing the cache file", "why_tests_cant": "all interleavings of writes of all sizes", "anchors": ["ocelot/io/__init__.py:extract_directory", "ocelot/filesystem.py:cache_data"]}
{"id": "C116", "title": "An interrupted clean-up is completed by the next one", "statement": "If cleaning up the output directories is interrupted at any moment, nothing that should be kept is lost, and the next clean-up deletes everything that the first one should have deleted.", "quantifier": "every output directory, every moment of interruption between two deletions of files, every later time of the next clean-up", "why_tests_cant": "all crash points for all directory contents", "anchors": ["ocelot/io/cleanup.py:cleanup_data_directory"]}
{"id": "C117", "title": "The distribution handed to the sampler fits the exchange and is scaled with it", "statement": "After repair, the stats_arrays description of a number has its amount, its location (or the logarithm of it) and its sign, bounds around the amount and a standard deviation that is not negative; scaling an exchange by a factor other than zero gives the description of the scaled random variable.", "quantifier": "every number with any supported distribution, every factor other than zero", "why_tests_cant": "all amounts, factors and distribution parameters", "anchors": ["ocelot/transformations/uncertainty/distributions.py:to_stats_arrays", "ocelot/transformations/uncertainty/distributions.py:rescale", "ocelot/transformations/uncertainty/distributions.py:repair", "ocelot/transformations/uncertainty/__init__.py:scale_exchange"]}
{"id": "C118", "title": "Intersection of places is exact and symmetric", "statement": "intersected(place) lists exactly the places that have a face in common with it, and intersects(a, b) is the same as intersects(b, a).", "quantifier": "every topology, all pairs of places", "why_tests_cant": "all maps from places to faces", "anchors": ["ocelot/transformations/locations/_topology.py:intersected", "ocelot/transformations/locations/_topology.py:intersects"]}
{"id": "C119", "title": "Databases with constrained markets are processed by the consequential model", "statement": "The consequential model runs to the end on consistent databases whose markets are constrained in the documented way: a byproduct of negative amount linked to a transforming activity that has the same product as an input.", "quantifier": "every list of extracted datasets in which a constrained exchange leads to an activity that has the product as an input, of any size, every well-formed topology, every iteration order of sets", "why_tests_cant": "the failure only shows when the functions for constrained markets, supplier choice and market volumes are composed; each is tested alone", "anchors": ["ocelot/configuration.py:consequential_config", "ocelot/transformations/consequential/constrained_markets.py:handle_constrained_markets", "ocelot/transformations/locations/markets.py:add_suppliers_to_markets", "ocelot/transformations/locations/markets.py:update_market_production_volumes", "ocelot/transformations/consequential/market_linking.py:prune_suppliers_by_technology_level"]}
{"id": "C120", "title": "Normalisation is stable under rounding", "statement": "In floating point arithmetic normalize_reference_production_amount leaves the reference product with its old sign and an absolute amount within 1.1e-14 of one, and normalising a second time changes nothing at all.", "quantifier": "every rounding to nearest with 53 bits (any monotone, sign-symmetric rounding with relative error at most 2^-53), every dataset, all amounts without overflow or underflow", "why_tests_cant": "all amounts: a test sees the rounding errors of the amounts it tries", "anchors": ["ocelot/transformations/utils.py:normalize_reference_production_amount", "ocelot/transformations/uncertainty/__init__.py:scale_exchange"]}
{"id": "C121", "title": "Rounding never pushes an amount out of its bounds", "statement": "Scaling an exchange with a well-formed uniform or triangular distribution by any factor never raises in floating point arithmetic: the rounded amount stays between the rounded bounds, and the uncertainty is dropped only when the rounded bounds coincide.", "quantifier": "every monotone rounding with relative error at most 2^-53, all amounts, bounds and factors", "why_tests_cant": "all triples of numbers and all factors", "anchors": ["ocelot/transformations/uncertainty/distributions.py:Uniform.rescale", "ocelot/transformations/uncertainty/distributions.py:Triangular.rescale"]}
{"id": "C122", "title": "Allocation factors add up to one up to rounding", "statement": "The economic allocation factors of n products, with and without true values, are non-negative and add up to one within 2(3+3n) units of roundoff, whatever the order in which pandas adds; the shares of any exchange add up to its amount within 2(4+3n) units of roundoff. Every single factor is the exact one within a relative 2(3n+7) units of roundoff, and the computation succeeds exactly if it does with exact numbers.", "quantifier": "every rounding with relative error at most 2^-53, every number of products, all non-negative prices, amounts and true values, every order of the additions", "why_tests_cant": "all numbers of products and all orders of summation; a test shows the error of one example", "anchors": ["ocelot/transformations/cutoff/economic.py:economic_allocation", "ocelot/transformations/utils.py:allocatable_production_as_dataframe", "ocelot/transformations/uncertainty/__init__.py:scale_exchange"]}
{"id": "C123", "title": "Market shares add up to the market's output up to rounding", "statement": "The inputs of a market from its n suppliers add up to the market's output within 2(n+2) units of roundoff relative to it; so do the inputs that replace an unlinked input of a consumer when it is divided between n markets, and they are of the same product and carry the codes of these markets; every single input is its supplier's exact share within the same relative error, and exactly the suppliers without volume get none; without any tolerance, a supplier with at least the volume of another one delivers at least as much, and no supplier of a market delivers more than the market's output if output and volumes are floating point numbers; the net production volume of a market is computed within (2n+2) units of roundoff of the volumes that enter, and is never negative.", "quantifier": "every rounding with relative error at most 2^-53, every number of suppliers, all non-negative volumes in any order", "why_tests_cant": "all numbers of suppliers and all volumes", "anchors": ["ocelot/transformations/locations/markets.py:allocate_suppliers", "ocelot/transformations/locations/markets.py:update_market_production_volumes"]}
{"id": "C124", "title": "Importing into Brightway2 is all or nothing", "statement": "import_into_brightway2 never changes a database that exists; it creates the named database exactly when it returns it, and then with one activity per dataset, every exchange linked, and the inventory of each dataset unchanged. A refused import changes nothing, and data that were not written can be imported again.", "quantifier": "every list of datasets, every project and database name, every background database", "why_tests_cant": "all databases and projects, and the state left behind by a first import for a second one; Brightway2 is not available to the tests", "anchors": ["ocelot/io/brightway2.py:import_into_brightway2", "ocelot/io/brightway2.py:Brightway2Converter"]}
{"id": "C125", "title": "Every run gets a directory of its own", "statement": "A run that starts has a new, empty, writeable directory named by its identifier: in the directory that is given, else in that of OCELOT_OUTPUT if it can be used, else in the user's data directory. Nothing that exists in the file system is changed; if there is no usable directory, OutputDirectoryError is raised.", "quantifier": "every file system, every value of the environment variable, every directory that is given, runs with different identifiers", "why_tests_cant": "all file systems: missing, unwriteable and obstructed directories at any depth", "anchors": ["ocelot/filesystem.py:OutputDir", "ocelot/filesystem.py:get_output_directory", "ocelot/filesystem.py:get_cache_directory", "ocelot/filesystem.py:create_dir", "ocelot/filesystem.py:check_dir"]}
{"id": "C126", "title": "Errors in the recalculation of one dataset do no harm", "statement": "recalculate_all_parameterized_datasets recalculates every dataset whose formulas can be evaluated; a dataset with an error is listed in the report and left as it was, and the others are not affected.", "quantifier": "every list of datasets, every formula language and evaluation order, errors at any formula of any dataset", "why_tests_cant": "all positions at which evaluation can fail, and the state that is left behind there", "anchors": ["ocelot/transformations/parameterization/recalculation.py:recalculate_all_parameterized_datasets", "ocelot/transformations/parameterization/recalculation.py:recalculate", "ocelot/transformations/utils.py:iterate_all_parameters"]}
{"id": "C127", "title": "The tables of the report list exactly what was changed", "statement": "For every transformation function that logs a table, the report has one row for every exchange or dataset that the function changed, deleted, created or failed to resolve, with its values, and no row for anything else.", "quantifier": "every list of datasets; the twenty functions that log table rows", "why_tests_cant": "all inputs: a row that is missing for one kind of exchange is only seen with such an exchange, and tests do not compare the log with the data", "anchors": ["ocelot/transformations/cutoff/cleanup.py", "ocelot/transformations/activity_links.py:update_activity_link_parent_child", "ocelot/transformations/production_volumes.py:add_pv_to_allocatable_byproducts", "ocelot/transformations/cutoff/wastes.py", "ocelot/transformations/cutoff/markets.py:adjust_market_signs_for_allocatable_products", "ocelot/transformations/cutoff/allocation.py:label_allocation_method", "ocelot/transformations/utils.py:normalize_reference_production_amount", "ocelot/transformations/locations/markets.py", "ocelot/transformations/locations/rest_of_world.py:relabel_global_to_row", "ocelot/transformations/locations/linking.py", "ocelot/transformations/consequential/constrained_markets.py", "ocelot/transformations/consequential/technology_levels.py"]}
{"id": "C128", "title": "The table of market production volumes balances", "statement": "The report of update_market_production_volumes has one row for every market (or market group); its net volume is the production volume the market has afterwards, and equals the original volume of its suppliers without the volumes bound by hard links to the suppliers and to the market, at least zero.", "quantifier": "every list of datasets, every topology, markets and market groups with any suppliers", "why_tests_cant": "all combinations of volumes and subtractions; the columns are computed separately and no test compares them", "anchors": ["ocelot/transformations/locations/markets.py:update_market_production_volumes", "ocelot/transformations/activity_links.py:update_transforming_activity_production_volumes", "ocelot/transformations/locations/rest_of_world.py:relabel_global_to_row"]}
{"id": "C129", "title": "Results do not depend on the units of volumes and prices", "statement": "If all production volumes are measured in another unit, all prices in another currency, and elementary flows in other units, every system model gives the same result in these units: the same datasets, links, codes and product amounts, production volumes and elementary flows multiplied by the factors, and the same exception if it fails.", "quantifier": "every list of datasets, every choice of positive factors, every topology and iteration order, the three configurations", "why_tests_cant": "all factors and all data at once; a threshold, a default value or a sum of different quantities anywhere in the pipeline would break it, and tests use one unit", "anchors": ["ocelot/configuration.py", "ocelot/transformations/locations/markets.py:allocate_suppliers", "ocelot/transformations/locations/markets.py:assign_fake_pv_to_confidential_datasets", "ocelot/transformations/cutoff/wastes.py:create_new_recycled_content_dataset", "ocelot/transformations/cutoff/economic.py:economic_allocation", "ocelot/transformations/activity_links.py"]}
{"id": "C130", "title": "Validation against an XML schema names exactly the invalid files", "statement": "Validating a directory against an XSD prints the names of exactly those ecospold2 files that are not valid, and says that all are valid if there are none.", "quantifier": "every directory, every schema, every content of the files", "why_tests_cant": "any subset of the files can be invalid or malformed; tests of this function do not exist, since it prints and returns nothing", "anchors": ["ocelot/io/validate_ecospold2.py:validate_directory_against_xsd"]}
{"id": "C131", "title": "Every command of the command line does what the help text says", "statement": "Each form of the command line that the usage text lists calls the function it documents with the arguments given (the default schema if none is named, the report unless --noshow), and the exit status is zero exactly if the command came to an end.", "quantifier": "every form of the usage text with every choice of arguments, every behaviour of the functions called (success, exception, interruption)", "why_tests_cant": "exceptions and interruptions inside the called functions are part of the quantifier; there are no tests of the command line", "anchors": ["ocelot/bin/ocelot_cli.py:main"]}
{"id": "C132", "title": "Parts of the database that are not connected do not influence each other", "statement": "If the datasets are divided in two parts such that no dataset refers to a name or a dataset of the other part, and the part in question does not include refinery gas, then each system model gives for this part exactly what it gives when it is run on the part alone: the same datasets in the same order with the same amounts, volumes and codes. So adding, changing or removing unrelated datasets changes nothing.", "quantifier": "every database and every division of it by names and ids, every topology, iteration order and formula environment, the three configurations", "why_tests_cant": "all databases with all unrelated rests at once; a leaked variable, a default taken over all datasets or a global sum anywhere in fifty functions would break it", "anchors": ["ocelot/configuration.py", "ocelot/transformations/locations/linking.py:link_consumers_to_markets", "ocelot/transformations/locations/markets.py", "ocelot/transformations/locations/rest_of_world.py", "ocelot/transformations/consequential/constrained_markets.py", "ocelot/transformations/activity_links.py"]}
{"id": "C133", "title": "The detailed log tells what happened to a dataset", "statement": "What the functions write to the detailed log is what they do, and writing it changes nothing. For hard links: one line for each link, about the dataset that is linked to, and the amounts in the lines about a dataset are together what is subtracted from its volumes. For production volumes: one line for each volume that is reduced. For allocation: one line for each dataset with its method. For relabelling: one line for each dataset whose location changed, with the volume before and after. For activity links: one line for each link that is resolved, with the dataset that is linked. For markets: the lines give the amount, the unit and the product of the inputs that are created, which sum to the amount of the market, and identify the supplier of each. For consumers: the lines give the markets that an input is linked to and the amounts from each. For recalculation: one line for each dataset that could not be recalculated.", "quantifier": "every database and every single call", "why_tests_cant": "all databases at once, line by line against every change; the log is not compared with the effects in the test suite", "anchors": ["ocelot/logger.py", "ocelot/transformations/activity_links.py", "ocelot/transformations/cutoff/allocation.py", "ocelot/transformations/locations/rest_of_world.py", "ocelot/transformations/locations/linking.py", "ocelot/transformations/locations/markets.py", "ocelot/transformations/parameterization/recalculation.py"]}
{"id": "C134", "title": "Results do not depend on how activities are identified", "statement": "Give other identifiers to all activities (different ones to different activities), together with the parents and activity links that refer to them, and other file names and metadata. Then running any list of the functions - the configurations of all system models, or any other - gives the same result with the new identifiers, or the same exception. In particular no name, place, amount, production volume, code or link by code changes. Exceptions: the empty identifier (no link), and the one identifier that is written in the source.", "quantifier": "every database, every renaming, every configuration made of the modelled functions", "why_tests_cant": "two runs are compared, over all databases, renamings and configurations; a test has one set of identifiers", "anchors": ["ocelot/transformations/activity_links.py", "ocelot/transformations/locations/linking.py", "ocelot/transformations/locations/markets.py", "ocelot/transformations/consequential/constrained_markets.py", "ocelot/transformations/cutoff/__init__.py", "ocelot/transformations/consequential/__init__.py", "ocelot/model.py"]}
{"id": "C135", "title": "The size at which an activity is described does not matter", "statement": "Multiply the amounts of all exchanges of an activity, which carry no uncertainty, by the same positive number; prices and yearly production volumes stay. Then the allocation method is the same; normalising, and allocation by revenue, of recycling and of waste treatment, give the same number of activities with the same content, or the same exception, up to a common factor that is one within 3e-14 (the tolerance below which normalising does nothing), and exactly the same if no product is within the tolerance of one without being one. The same holds exactly, uncertainty included, for normalising and for allocation by revenue of amounts with settled distributions that are scaled with the amount (every product having a share). Combined production gives the same activities at the other size if the exchanges are plain numbers, and combined production without products or with byproducts the same results as above. The production volumes estimated for byproducts, and what hard links take from the volumes of their suppliers, are exactly the same.", "quantifier": "every dataset, every positive factor", "why_tests_cant": "two runs over all datasets and factors are compared; tests use one size", "anchors": ["ocelot/transformations/utils.py", "ocelot/transformations/cutoff/economic.py", "ocelot/transformations/cutoff/wastes.py", "ocelot/transformations/cutoff/combined.py", "ocelot/transformations/cutoff/allocation.py", "ocelot/transformations/production_volumes.py", "ocelot/transformations/activity_links.py"]}
{"id": "C136", "title": "Prices and production volumes act in the right direction", "statement": "If one product of an activity gets dearer and nothing else changes, economic allocation still succeeds, the share of that product does not fall, and the share of no other product rises, except that products with a true value relation rise and fall together with their joint revenue; accordingly the activity for that product does not take or emit less of anything per unit, and the other activities not more. If one supplier of a market gets a bigger production volume, the market does not get less from it, nor more from any other supplier. If one market or market group gets a bigger production volume, no consumer gets less from it, nor more from any other.", "quantifier": "every list of products with non-negative amounts, prices and true values; every market with non-negative volumes; every list of datasets whose volumes and unlinked inputs are not negative", "why_tests_cant": "the comparison is between two runs, for all numbers of products and all changes of price or volume", "anchors": ["ocelot/transformations/cutoff/economic.py", "ocelot/transformations/utils.py", "ocelot/transformations/locations/markets.py", "ocelot/transformations/locations/linking.py"]}
{"id": "C137", "title": "What an activity takes or emits does not influence how it is shared out", "statement": "For given products there is one number for each activity made by economic allocation, recycling allocation or waste treatment allocation; whatever else the activity takes or emits, the new activity gets that number times the total of each flow, per unit of its product. In recycling the treated material counts as an input. So results for two activities with the same products can be added. Which method is used depends on products, name, type and the presence of a conditional exchange only.", "quantifier": "every list of products, every activity with these products, every flow", "why_tests_cant": "one number has to work for all possible inputs and emissions at once", "anchors": ["ocelot/transformations/cutoff/economic.py", "ocelot/transformations/cutoff/wastes.py", "ocelot/transformations/cutoff/utils.py", "ocelot/transformations/cutoff/allocation.py"]}
{"id": "C138", "title": "It does not matter whether one product or supplier is described as two", "statement": "If a product is described as two products with the same price and true value, whose amounts add up to its amount, economic allocation still succeeds, the two together get the share of the product in proportion to their amounts, and every other share stays the same; the activities for the two take and emit the same per unit as the activity for the one, and the other activities are not affected. If a supplier of a market is described as two whose production volumes add up to its volume, the two together deliver what it delivered and all others deliver the same.", "quantifier": "every list of products, every market, every way to divide the amount or volume", "why_tests_cant": "the comparison is between two runs on different input, for all ways to divide a product or supplier", "anchors": ["ocelot/transformations/cutoff/economic.py", "ocelot/transformations/utils.py", "ocelot/transformations/locations/markets.py"]}
