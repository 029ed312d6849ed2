{
 "claims": [
  {
   "property": "C01",
   "status": "proved",
   "theorems": [
    "Ocelot.C01_scale_amount",
    "Ocelot.C01_scale_frame",
    "Ocelot.C01_scale_one",
    "Ocelot.C01_scale_unsupported",
    "Ocelot.C01_scale_certain"
   ],
   "note": ""
  },
  {
   "property": "C02",
   "status": "proved",
   "theorems": [
    "Ocelot.C02_scale_bounded"
   ],
   "note": ""
  },
  {
   "property": "C03",
   "status": "proved",
   "theorems": [
    "Ocelot.C03_scale_compose",
    "Ocelot.C03_scale_exchange_compose",
    "Ocelot.C03_flip_twice",
    "Ocelot.C03_uniform_fails"
   ],
   "note": ""
  },
  {
   "property": "C04",
   "status": "proved",
   "theorems": [
    "Ocelot.C04_scale_lognormal",
    "Ocelot.C04_scale_sequence",
    "Ocelot.C04_flag_toggle",
    "Ocelot.C04_repair_lognormal"
   ],
   "note": ""
  },
  {
   "property": "C05",
   "status": "partial",
   "theorems": [
    "Ocelot.C05_normal_scale_partial",
    "Ocelot.C05_location_stale",
    "Ocelot.C05_location_triangular"
   ],
   "note": "The variance half holds (C05_normal_scale_partial). The location half is false of the code: Normal.rescale never updates the stored mean that to_stats_arrays reads; C05_location_stale proves the failure for every factor and amount, C05_location_triangular that triangular does not have the problem."
  },
  {
   "property": "C06",
   "status": "partial",
   "theorems": [
    "Ocelot.C06_repair_idempotent_partial",
    "Ocelot.C06_lognormal_not_idempotent"
   ],
   "note": "Idempotence holds for every distribution except at the lognormal boundary (C06_repair_idempotent_partial has that side condition); C06_lognormal_not_idempotent exhibits a lognormal for which the second repair changes the object again."
  },
  {
   "property": "C07",
   "status": "proved",
   "theorems": [
    "Ocelot.C07_repair_valid",
    "Ocelot.C07_uniform_repaired",
    "Ocelot.C07_repair_errors"
   ],
   "note": ""
  },
  {
   "property": "C08",
   "status": "proved",
   "theorems": [
    "Ocelot.C08_adjust_range",
    "Ocelot.C08_adjust_mono_difference",
    "Ocelot.C08_adjust_mono_current",
    "Ocelot.C08_table",
    "Ocelot.C08_adjust_frame",
    "Ocelot.C08_no_matrix",
    "Ocelot.C08_same_year",
    "Ocelot.C08_variance_not_reduced"
   ],
   "note": ""
  },
  {
   "property": "C09",
   "status": "partial",
   "theorems": [
    "Ocelot.C09_variance_mono",
    "Ocelot.C09_variance_zero",
    "Ocelot.C09_variance_bounded",
    "Ocelot.C09_extracted_matrix_fails"
   ],
   "note": "Non-negativity, bounds and monotonicity proved for score matrices with the expected keys; matrices as written by the extractor lack a required key, so the lookup raises KeyError (C09_extracted_matrix_fails, for all scores)."
  },
  {
   "property": "C10",
   "status": "proved",
   "theorems": [
    "Ocelot.C10_normalize_result",
    "Ocelot.C10_normalize_errors",
    "Ocelot.C10_normalize_idempotent"
   ],
   "note": ""
  },
  {
   "property": "C11",
   "status": "proved",
   "theorems": [
    "Ocelot.C11_choose_shape",
    "Ocelot.C11_choose_reference",
    "Ocelot.C11_choose_single",
    "Ocelot.C11_choose_zero"
   ],
   "note": ""
  },
  {
   "property": "C12",
   "status": "proved",
   "theorems": [
    "Ocelot.C12_biggest_ratio",
    "Ocelot.C12_biggest_outcome",
    "Ocelot.C12_biggest_order"
   ],
   "note": ""
  },
  {
   "property": "C13",
   "status": "proved",
   "theorems": [
    "Ocelot.C13_choose_total",
    "Ocelot.C13_choose_exact",
    "Ocelot.C13_choose_error",
    "Ocelot.C13_choose_label"
   ],
   "note": ""
  },
  {
   "property": "C14",
   "status": "proved",
   "theorems": [
    "Ocelot.C14_factors"
   ],
   "note": ""
  },
  {
   "property": "C15",
   "status": "proved",
   "theorems": [
    "Ocelot.C15_economic_conserves",
    "Ocelot.C15_economic_outputs"
   ],
   "note": ""
  },
  {
   "property": "C16",
   "status": "proved",
   "theorems": [
    "Ocelot.C16_true_value"
   ],
   "note": ""
  },
  {
   "property": "C17",
   "status": "proved",
   "theorems": [
    "Ocelot.C17_waste_treatment",
    "Ocelot.C17_waste_rejects"
   ],
   "note": ""
  },
  {
   "property": "C18",
   "status": "proved",
   "theorems": [
    "Ocelot.C18_recycling",
    "Ocelot.C18_recycling_rejects"
   ],
   "note": ""
  },
  {
   "property": "C19",
   "status": "proved",
   "theorems": [
    "Ocelot.C19_combined_production",
    "Ocelot.C19_one_reference_product"
   ],
   "note": ""
  },
  {
   "property": "C20",
   "status": "proved",
   "theorems": [
    "Ocelot.C20_merge",
    "Ocelot.C20_merge_conserves",
    "Ocelot.C20_merge_outcome"
   ],
   "note": ""
  },
  {
   "property": "C21",
   "status": "proved",
   "theorems": [
    "Ocelot.C21_flip",
    "Ocelot.C21_flip_idempotent",
    "Ocelot.C21_flip_total"
   ],
   "note": ""
  },
  {
   "property": "C22",
   "status": "proved",
   "theorems": [
    "Ocelot.C22_market_signs",
    "Ocelot.C22_market_signs_all",
    "Ocelot.C22_unclassified_fails"
   ],
   "note": ""
  },
  {
   "property": "C23",
   "status": "proved",
   "theorems": [
    "Ocelot.C23_remove_consequential",
    "Ocelot.C23_drop_rp_links",
    "Ocelot.C23_drop_zero_links",
    "Ocelot.C23_cleanup_laws"
   ],
   "note": ""
  },
  {
   "property": "C24",
   "status": "proved",
   "theorems": [
    "Ocelot.C24_recycled_content",
    "Ocelot.C24_taken_up",
    "Ocelot.C24_total"
   ],
   "note": ""
  },
  {
   "property": "C25",
   "status": "proved",
   "theorems": [
    "Ocelot.C25_rename",
    "Ocelot.C25_roundtrip",
    "Ocelot.C25_inner_occurrence_lost"
   ],
   "note": ""
  },
  {
   "property": "C26",
   "status": "partial",
   "theorems": [
    "Ocelot.C26_dispatch",
    "Ocelot.C26_one_reference_product",
    "Ocelot.C26_no_live_byproduct_partial",
    "Ocelot.C26_live_byproduct_after_recalculation"
   ],
   "note": "Dispatch and the one-reference-product half are proved in full (C26_dispatch, C26_one_reference_product). The no-live-byproduct half is proved for datasets whose zero-amount allocatable byproducts have no formula (C26_no_live_byproduct_partial); with a formula it is false, C26_live_byproduct_after_recalculation is a witness."
  },
  {
   "property": "C27",
   "status": "partial",
   "theorems": [
    "Ocelot.C27_constrained_market_never_returns",
    "Ocelot.C27_constrained_market_type_error",
    "Ocelot.C27_zero_conditional_partial"
   ],
   "note": "False of the code: the function returns a dictionary, so cutoff_allocation never returns on data with a constrained market (C27_constrained_market_never_returns, for all data); only the effect of the unwrapped function is as documented (C27_zero_conditional_partial)."
  },
  {
   "property": "C28",
   "status": "proved",
   "theorems": [
    "Ocelot.C28_exact",
    "Ocelot.C28_unique_ids"
   ],
   "note": ""
  },
  {
   "property": "C29",
   "status": "proved",
   "theorems": [
    "Ocelot.C29_volumes",
    "Ocelot.C29_order_irrelevant",
    "Ocelot.C29_only_zero_production",
    "Ocelot.C29_total"
   ],
   "note": ""
  },
  {
   "property": "C30",
   "status": "proved",
   "theorems": [
    "Ocelot.C30_update",
    "Ocelot.C30_nonneg",
    "Ocelot.C30_total"
   ],
   "note": ""
  },
  {
   "property": "C31",
   "status": "proved",
   "theorems": [
    "Ocelot.C31_redirect",
    "Ocelot.C31_no_parent_links",
    "Ocelot.C31_idempotent"
   ],
   "note": ""
  },
  {
   "property": "C32",
   "status": "proved",
   "theorems": [
    "Ocelot.C32_build",
    "Ocelot.C32_named",
    "Ocelot.C32_set_child",
    "Ocelot.C32_row_parent",
    "Ocelot.C32_refl",
    "Ocelot.C32_trans",
    "Ocelot.C32_glo",
    "Ocelot.C32_row_rules"
   ],
   "note": ""
  },
  {
   "property": "C33",
   "status": "proved",
   "theorems": [
    "Ocelot.C33_agree",
    "Ocelot.C33_exclude_self",
    "Ocelot.C33_row"
   ],
   "note": ""
  },
  {
   "property": "C34",
   "status": "proved",
   "theorems": [
    "Ocelot.C34_complement",
    "Ocelot.C34_partition",
    "Ocelot.C34_antitone",
    "Ocelot.C34_order_irrelevant",
    "Ocelot.C34_total"
   ],
   "note": ""
  },
  {
   "property": "C35",
   "status": "proved",
   "theorems": [
    "Ocelot.C35_overlaps",
    "Ocelot.C35_no_overlaps"
   ],
   "note": ""
  },
  {
   "property": "C36",
   "status": "proved",
   "theorems": [
    "Ocelot.C36_order",
    "Ocelot.C36_independent",
    "Ocelot.C36_inside_after",
    "Ocelot.C36_total"
   ],
   "note": ""
  },
  {
   "property": "C37",
   "status": "proved",
   "theorems": [
    "Ocelot.C37_invisible",
    "Ocelot.C37_recent_kept",
    "Ocelot.C37_topology"
   ],
   "note": ""
  },
  {
   "property": "C38",
   "status": "proved",
   "theorems": [
    "Ocelot.C38_relabel",
    "Ocelot.C38_single_global",
    "Ocelot.C38_total_volume",
    "Ocelot.C38_idempotent",
    "Ocelot.C38_outcome"
   ],
   "note": ""
  },
  {
   "property": "C39",
   "status": "partial",
   "theorems": [
    "Ocelot.C39_named_places",
    "Ocelot.C39_only_inside",
    "Ocelot.C39_exactly_inside_partial",
    "Ocelot.C39_duplicate_row_dropped"
   ],
   "note": "Every entry describes a supplier inside the market (C39_only_inside, no further hypothesis); that every such supplier is listed exactly once is proved when at most one same-named supplier of the product is in RoW (C39_exactly_inside_partial). With two it is false: the earlier one is silently dropped (C39_duplicate_row_dropped); no supplier at a named place inside the market is ever missing (C39_named_places, without that condition)."
  },
  {
   "property": "C40",
   "status": "proved",
   "theorems": [
    "Ocelot.C40_disjoint_suppliers"
   ],
   "note": ""
  },
  {
   "property": "C41",
   "status": "proved",
   "theorems": [
    "Ocelot.C41_shares",
    "Ocelot.C41_sum",
    "Ocelot.C41_single_zero",
    "Ocelot.C41_several_zero",
    "Ocelot.C41_total",
    "Ocelot.C41_all"
   ],
   "note": ""
  },
  {
   "property": "C42",
   "status": "proved",
   "theorems": [
    "Ocelot.C42_order_irrelevant"
   ],
   "note": ""
  },
  {
   "property": "C43",
   "status": "proved",
   "theorems": [
    "Ocelot.C43_net_supply",
    "Ocelot.C43_nonneg",
    "Ocelot.C43_total"
   ],
   "note": ""
  },
  {
   "property": "C44",
   "status": "proved",
   "theorems": [
    "Ocelot.C44_consistent",
    "Ocelot.C44_after_linking"
   ],
   "note": ""
  },
  {
   "property": "C45",
   "status": "partial",
   "theorems": [
    "Ocelot.C45_good_choice_partial",
    "Ocelot.C45_row_missing",
    "Ocelot.C45_row_overlap"
   ],
   "note": "Proved in full for suppliers at named places (C45_good_choice_partial: same product, inside, pairwise disjoint, not the group itself, maximal, larger first, market preferred). The clauses that involve the resolved RoW market are false of the code: it can be missing from the global group (C45_row_missing) and it can be chosen together with a market group that overlaps it (C45_row_overlap)."
  },
  {
   "property": "C46",
   "status": "partial",
   "theorems": [
    "Ocelot.C46_conserves_partial",
    "Ocelot.C46_right_product_partial",
    "Ocelot.C46_wrong_product",
    "Ocelot.C46_unbound",
    "Ocelot.C46_gas_lost"
   ],
   "note": "Conservation of every flow is proved unless a dataset has two equal inputs of refinery gas and nobody sells it (C46_conserves_partial), linking to the right product for all data in which an unlinked input of refinery gas has a market (C46_right_product_partial). Otherwise both fail, because a variable of the previous iteration is reused: C46_gas_lost, C46_wrong_product, or is unbound (C46_unbound)."
  },
  {
   "property": "C47",
   "status": "partial",
   "theorems": [
    "Ocelot.C47_geography_partial",
    "Ocelot.C47_disjoint",
    "Ocelot.C47_row_overlap"
   ],
   "note": "C47_geography_partial proves the choice in full (inside, maximal, larger first, else the smallest around); disjointness holds when no RoW market meets market groups of the same product (C47_disjoint). Otherwise it is false of the code: C47_row_overlap."
  },
  {
   "property": "C48",
   "status": "partial",
   "theorems": [
    "Ocelot.C48_deletes_nothing",
    "Ocelot.C48_unlinked_remain",
    "Ocelot.C48_partial"
   ],
   "note": "False of the code: the list comprehension tests the dataset's code instead of the exchange's, so on datasets with codes nothing is deleted (C48_deletes_nothing, C48_unlinked_remain, for all data). C48_partial is what remains true."
  },
  {
   "property": "C49",
   "status": "partial",
   "theorems": [
    "Ocelot.C49_unique",
    "Ocelot.C49_identical",
    "Ocelot.C49_different_partial",
    "Ocelot.C49_false_alarm"
   ],
   "note": "Uniqueness and the exact condition of the error are proved (C49_unique, C49_identical); that different datasets are not rejected is false without separators between the concatenated fields (C49_false_alarm) and proved up to the concatenation (C49_different_partial)."
  },
  {
   "property": "C50",
   "status": "proved",
   "theorems": [
    "Ocelot.C50_activity_links",
    "Ocelot.C50_total",
    "Ocelot.C50_dangling",
    "Ocelot.C50_reference_codes"
   ],
   "note": ""
  },
  {
   "property": "C51",
   "status": "partial",
   "theorems": [
    "Ocelot.C51_exact",
    "Ocelot.C51_total",
    "Ocelot.C51_removed",
    "Ocelot.C51_one_left_partial",
    "Ocelot.C51_duplicates_all_removed"
   ],
   "note": "Exact removal is proved for every list (C51_exact, C51_removed, C51_total). The clause that every product keeps a dataset is proved for lists without equal datasets (C51_one_left_partial); with equal copies it is false, because the code compares by value (C51_duplicates_all_removed)."
  },
  {
   "property": "C52",
   "status": "proved",
   "theorems": [
    "Ocelot.C52_recycled_inputs",
    "Ocelot.C52_total"
   ],
   "note": ""
  },
  {
   "property": "C53",
   "status": "partial",
   "theorems": [
    "Ocelot.C53_after_partial",
    "Ocelot.C53_lowercase_merges",
    "Ocelot.C53_reference_name_taken",
    "Ocelot.C53_unique_exact"
   ],
   "note": "The check itself is exact (C53_unique_exact). The second half is proved as an exact criterion (C53_after_partial: afterwards the names differ iff they differed regardless of case once references were named). That the names always differ afterwards is false of the code: C53_lowercase_merges, C53_reference_name_taken."
  },
  {
   "property": "C54",
   "status": "proved",
   "theorems": [
    "Ocelot.C54_pv_parameters"
   ],
   "note": ""
  },
  {
   "property": "C55",
   "status": "partial",
   "theorems": [
    "Ocelot.C55_terminates",
    "Ocelot.C55_none_left",
    "Ocelot.C55_tree_partial",
    "Ocelot.C55_power_inside"
   ],
   "note": "Termination and absence of remaining conditionals are proved for every formula; the translation of arbitrarily nested conditionals is proved when no other semicolons occur inside them (C55_tree_partial). With power(a;b) inside a conditional it is false: C55_power_inside."
  },
  {
   "property": "C56",
   "status": "proved",
   "theorems": [
    "Ocelot.C56_arithmetic",
    "Ocelot.C56_order_independent",
    "Ocelot.C56_solves",
    "Ocelot.C56_idempotent",
    "Ocelot.C56_again",
    "Ocelot.C56_again_same"
   ],
   "note": ""
  },
  {
   "property": "C57",
   "status": "proved",
   "theorems": [
    "Ocelot.C57_references",
    "Ocelot.C57_missing"
   ],
   "note": ""
  },
  {
   "property": "C58",
   "status": "partial",
   "theorems": [
    "Ocelot.C58_whole_words_partial",
    "Ocelot.C58_parsable_partial",
    "Ocelot.C58_parses_or_unchanged",
    "Ocelot.C58_longer_identifier",
    "Ocelot.C58_exact_partial"
   ],
   "note": "Proved when no reserved word is part of a longer identifier (C58_whole_words_partial, C58_parsable_partial, and C58_exact_partial for the exact resulting text) and, without hypothesis, that the result parses or is the original (C58_parses_or_unchanged). With a longer identifier the replacement also changes that identifier: C58_longer_identifier."
  },
  {
   "property": "C59",
   "status": "proved",
   "theorems": [
    "Ocelot.C59_flatten",
    "Ocelot.C59_nesting",
    "Ocelot.C59_nested_call",
    "Ocelot.C59_plain_list",
    "Ocelot.C59_insert",
    "Ocelot.C59_set_delete"
   ],
   "note": ""
  },
  {
   "property": "C60",
   "status": "proved",
   "theorems": [
    "Ocelot.C60_filtered",
    "Ocelot.C60_unfiltered",
    "Ocelot.C60_failure"
   ],
   "note": ""
  },
  {
   "property": "C61",
   "status": "partial",
   "theorems": [
    "Ocelot.C61_range",
    "Ocelot.C61_other_steps",
    "Ocelot.C61_interval",
    "Ocelot.C61_every",
    "Ocelot.C61_default"
   ],
   "note": "The forms first:last:step, every N and single numbers are proved exact. The documented default (every fifth) is not what the code does (every thousandth): C61_default."
  },
  {
   "property": "C62",
   "status": "partial",
   "theorems": [
    "Ocelot.C62_run_partial",
    "Ocelot.C62_failure",
    "Ocelot.C62_interrupted",
    "Ocelot.C62_cases",
    "Ocelot.C62_nested",
    "Ocelot.C62_rejected",
    "Ocelot.C62_empty_is_default",
    "Ocelot.C62_text",
    "Ocelot.C62_bad_strategy"
   ],
   "note": "Proved for every configuration that is a list or Collection of functions (C62_run_partial, C62_failure, C62_interrupted, with C62_cases showing that these are all cases). A nested configuration passes validation and then always ends with a TypeError: C62_nested."
  },
  {
   "property": "C63",
   "status": "partial",
   "theorems": [
    "Ocelot.C63_fresh_partial",
    "Ocelot.C63_emptied",
    "Ocelot.C63_hidden",
    "Ocelot.C63_during"
   ],
   "note": "Proved for every history with an advancing clock in which no file changes during an extraction and no hidden file ends in .spold, for directories that are not empty (C63_fresh_partial). Outside these it is false: C63_emptied (ValueError), C63_hidden and C63_during (stale data)."
  },
  {
   "property": "C64",
   "status": "proved",
   "theorems": [
    "Ocelot.C64_report",
    "Ocelot.C64_undeclared"
   ],
   "note": ""
  },
  {
   "property": "C65",
   "status": "partial",
   "theorems": [
    "Ocelot.C65_exact_partial",
    "Ocelot.C65_keeps",
    "Ocelot.C65_link",
    "Ocelot.C65_order"
   ],
   "note": "Exact deletion is proved when no link to a directory is older than a week (C65_exact_partial); files, links and younger directories are never deleted in any case (C65_keeps). An old link makes the clean-up fail halfway (C65_link)."
  },
  {
   "property": "C66",
   "status": "proved",
   "theorems": [
    "Ocelot.C66_succeeds_iff",
    "Ocelot.C66_exchanges",
    "Ocelot.C66_matrix",
    "Ocelot.C66_biosphere",
    "Ocelot.C66_fields",
    "Ocelot.C66_database"
   ],
   "note": ""
  },
  {
   "property": "C67",
   "status": "proved",
   "theorems": [
    "Ocelot.C67_exchanges",
    "Ocelot.C67_conditional",
    "Ocelot.C67_volumes",
    "Ocelot.C67_directory",
    "Ocelot.C67_pool"
   ],
   "note": ""
  },
  {
   "property": "C68",
   "status": "proved",
   "theorems": [
    "Ocelot.C68_best",
    "Ocelot.C68_failure"
   ],
   "note": ""
  },
  {
   "property": "C69",
   "status": "proved",
   "theorems": [
    "Ocelot.C69_balances",
    "Ocelot.C69_roles"
   ],
   "note": ""
  },
  {
   "property": "C70",
   "status": "partial",
   "theorems": [
    "Ocelot.C70_substitution",
    "Ocelot.C70_links",
    "Ocelot.C70_all_links_deleted",
    "Ocelot.C70_links_partial"
   ],
   "note": "The substitution check is exact (C70_substitution). The second half is false of the code: the set of constrained activities is computed and never used, every activity link of an ordinary exchange is deleted (C70_links, C70_all_links_deleted); C70_links_partial is what remains."
  },
  {
   "property": "C71",
   "status": "proved",
   "theorems": [
    "Ocelot.C71_cutoff"
   ],
   "note": ""
  },
  {
   "property": "C72",
   "status": "proved",
   "theorems": [
    "Ocelot.C72_flat",
    "Ocelot.C72_same"
   ],
   "note": ""
  },
  {
   "property": "C73",
   "status": "proved",
   "theorems": [
    "Ocelot.C73_drop_zero_row"
   ],
   "note": ""
  },
  {
   "property": "C74",
   "status": "proved",
   "theorems": [
    "Ocelot.C74_recycled_suppliers"
   ],
   "note": ""
  },
  {
   "property": "C75",
   "status": "proved",
   "theorems": [
    "Ocelot.C75_whitelisted",
    "Ocelot.C75_others_kept",
    "Ocelot.C75_volume_ignored"
   ],
   "note": ""
  },
  {
   "property": "C76",
   "status": "proved",
   "theorems": [
    "Ocelot.C76_confidential"
   ],
   "note": ""
  },
  {
   "property": "C77",
   "status": "proved",
   "theorems": [
    "Ocelot.C77_no_row_groups",
    "Ocelot.C77_names"
   ],
   "note": ""
  },
  {
   "property": "C78",
   "status": "partial",
   "theorems": [
    "Ocelot.C78_terminates",
    "Ocelot.C78_powers_partial",
    "Ocelot.C78_bracket_crash",
    "Ocelot.C78_repeated_crash"
   ],
   "note": "Termination is proved for every formula; the translation is proved for different clauses and no other closing bracket behind a clause (C78_powers_partial). Otherwise the function crashes: C78_bracket_crash, C78_repeated_crash."
  },
  {
   "property": "C79",
   "status": "partial",
   "theorems": [
    "Ocelot.C79_files",
    "Ocelot.C79_last_partial",
    "Ocelot.C79_false"
   ],
   "note": "Only the last run's file is its own (C79_last_partial). In general it is false: handlers are never removed, so that an earlier run's file also receives every later record (C79_files, C79_false)."
  },
  {
   "property": "C80",
   "status": "partial",
   "theorems": [
    "Ocelot.C80_no_volume"
   ],
   "note": "False of the code: the new reference product is a former input, which has no production volume (C80_no_volume, for every swap)."
  },
  {
   "property": "C81",
   "status": "partial",
   "theorems": [
    "Ocelot.C81_switch_partial",
    "Ocelot.C81_levels_partial",
    "Ocelot.C81_undefined_stops"
   ],
   "note": "switch_undefined_to_current does what it says (C81_switch_partial, C81_levels_partial) but no configuration calls it, so that a market with only undefined suppliers stops the run (C81_undefined_stops)."
  },
  {
   "property": "C82",
   "status": "partial",
   "theorems": [
    "Ocelot.C82_never_found",
    "Ocelot.C82_adjustment_does_nothing"
   ],
   "note": "False of the code: extraction puts the matrix inside the uncertainty, the other functions look for it beside it (C82_never_found for every extracted number; C82_adjustment_does_nothing)."
  },
  {
   "property": "C83",
   "status": "proved",
   "theorems": [
    "Ocelot.C83_values",
    "Ocelot.C83_pedigree"
   ],
   "note": ""
  },
  {
   "property": "C84",
   "status": "proved",
   "theorems": [
    "Ocelot.C84_ids"
   ],
   "note": ""
  },
  {
   "property": "C85",
   "status": "proved",
   "theorems": [
    "Ocelot.C85_ok_iff",
    "Ocelot.C85_errors"
   ],
   "note": ""
  },
  {
   "property": "C86",
   "status": "proved",
   "theorems": [
    "Ocelot.C86_volumes",
    "Ocelot.C86_succeeds_iff",
    "Ocelot.C86_zero_left"
   ],
   "note": ""
  },
  {
   "property": "C87",
   "status": "proved",
   "theorems": [
    "Ocelot.C87_check",
    "Ocelot.C87_errors",
    "Ocelot.C87_cleaned"
   ],
   "note": ""
  },
  {
   "property": "C88",
   "status": "proved",
   "theorems": [
    "Ocelot.C88_rows"
   ],
   "note": ""
  },
  {
   "property": "C89",
   "status": "proved",
   "theorems": [
    "Ocelot.C89_all_volumes",
    "Ocelot.C89_deparameterize"
   ],
   "note": ""
  },
  {
   "property": "C90",
   "status": "partial",
   "theorems": [
    "Ocelot.C90_links_partial",
    "Ocelot.C90_extracted",
    "Ocelot.C90_dangling"
   ],
   "note": "Every link leads to a dataset that was given a code, and which is in the result unless it is located in the rest of the world (C90_links_partial). False in full: a link to a global dataset without production dangles, since the dataset is deleted after it was linked (C90_dangling)."
  },
  {
   "property": "C91",
   "status": "proved",
   "theorems": [
    "Ocelot.C91_consequential"
   ],
   "note": ""
  },
  {
   "property": "C92",
   "status": "proved",
   "theorems": [
    "Ocelot.C92_provenance"
   ],
   "note": ""
  },
  {
   "property": "C93",
   "status": "proved",
   "theorems": [
    "Ocelot.C93_inventory",
    "Ocelot.C93_gas_lost"
   ],
   "note": ""
  },
  {
   "property": "C94",
   "status": "proved",
   "theorems": [
    "Ocelot.C94_market_balance"
   ],
   "note": ""
  },
  {
   "property": "C95",
   "status": "partial",
   "theorems": [
    "Ocelot.C95_linked_product_partial",
    "Ocelot.C95_wrong_product"
   ],
   "note": "Proved if refinery gas has a market outside the rest of the world or is not used, and otherwise for every exchange that is not refinery gas (C95_linked_product_partial). False for refinery gas without a market: a complete run links it to the market for steel (C95_wrong_product)."
  },
  {
   "property": "C96",
   "status": "proved",
   "theorems": [
    "Ocelot.C96_inventory"
   ],
   "note": ""
  },
  {
   "property": "C97",
   "status": "proved",
   "theorems": [
    "Ocelot.C97_market_balance"
   ],
   "note": ""
  },
  {
   "property": "C98",
   "status": "partial",
   "theorems": [
    "Ocelot.C98_linked_product_partial",
    "Ocelot.C98_wrong_product"
   ],
   "note": "Proved if refinery gas has a market outside the rest of the world or is not used, and otherwise for every exchange that is not refinery gas (C98_linked_product_partial). False for refinery gas without a market (C98_wrong_product)."
  },
  {
   "property": "C99",
   "status": "proved",
   "theorems": [
    "Ocelot.C99_safe_characters",
    "Ocelot.C99_hash",
    "Ocelot.C99_no_collision"
   ],
   "note": ""
  },
  {
   "property": "C100",
   "status": "proved",
   "theorems": [
    "Ocelot.C100_files_of_run",
    "Ocelot.C100_result_file"
   ],
   "note": ""
  },
  {
   "property": "C101",
   "status": "partial",
   "theorems": [
    "Ocelot.C101_follow_path",
    "Ocelot.C101_other_file"
   ],
   "note": "False as stated. A file path with a directory separator stops the run with an OSError as soon as a dataset is followed (C101_follow_path), and datasets whose path contains the text are saved too (C101_other_file). That a text without separator saves exactly the datasets whose path contains it is part of C100_files_of_run."
  },
  {
   "property": "C102",
   "status": "partial",
   "theorems": [
    "Ocelot.C102_independent",
    "Ocelot.C102_fresh_partial"
   ],
   "note": "Independence of the directories is proved (C102_independent), fresh content under the assumptions of C63 (C102_fresh_partial; see C63 for what fails without them)."
  },
  {
   "property": "C103",
   "status": "partial",
   "theorems": [
    "Ocelot.C103_conforms",
    "Ocelot.C103_same_data",
    "Ocelot.C103_access",
    "Ocelot.C103_gamma",
    "Ocelot.C103_groups"
   ],
   "note": "C103_conforms characterises exactly which ecospold2 elements give data that pass validation, C103_same_data that both models of extraction agree. The property is false for valid ecospold2 datasets with gamma distributions (C103_gamma), with other exchange groups (C103_groups) or without access restriction (C103_access: extraction fails)."
  },
  {
   "property": "C104",
   "status": "partial",
   "theorems": [
    "Ocelot.C104_no_errors",
    "Ocelot.C104_report",
    "Ocelot.C104_count",
    "Ocelot.C104_same_message"
   ],
   "note": "C104_no_errors proves the first half. The second is false: errors are kept per message, so that the number is that of the different messages (C104_count) and of datasets with the same message only the last is reported (C104_report, C104_same_message)."
  },
  {
   "property": "C105",
   "status": "partial",
   "theorems": [
    "Ocelot.C105_refinery",
    "Ocelot.C105_pipeline",
    "Ocelot.C105_link",
    "Ocelot.C105_formulas",
    "Ocelot.C105_pounds",
    "Ocelot.C105_numbers_partial"
   ],
   "note": "What is changed is proved exactly (C105_refinery, C105_pipeline, C105_link, C105_formulas). That the new text has the same value holds for two of the numbers up to rounding (C105_numbers_partial) and is false for the third: 152 million pounds become 68949040.24 kg, three tonnes too much (C105_pounds). The fourth replacement is a conditional with the same value wherever the old one has a value."
  },
  {
   "property": "C106",
   "status": "proved",
   "theorems": [
    "Ocelot.C106_flows",
    "Ocelot.C106_burden",
    "Ocelot.C106_returned"
   ],
   "note": ""
  },
  {
   "property": "C107",
   "status": "proved",
   "theorems": [
    "Ocelot.C107_flows",
    "Ocelot.C107_returned"
   ],
   "note": ""
  },
  {
   "property": "C108",
   "status": "proved",
   "theorems": [
    "Ocelot.C108_cutoff",
    "Ocelot.C108_consequential"
   ],
   "note": ""
  },
  {
   "property": "C109",
   "status": "partial",
   "theorems": [
    "Ocelot.C109_cutoff_partial",
    "Ocelot.C109_square",
    "Ocelot.C109_consequential",
    "Ocelot.C109_unlinked"
   ],
   "note": "The export of a cut-off result succeeds exactly if its inputs and byproducts are linked and its elementary exchanges have compartments (C109_cutoff_partial), and is then square up to the deleted datasets of C90 (C109_square). False in full: inputs without a market that lies in or around the consumer stay unlinked and make the export fail (C109_unlinked), and the consequential model never links reference products, so that none of its results can be exported unless all products are constrained or refinery gas (C109_consequential, for all inputs)."
  },
  {
   "property": "C110",
   "status": "partial",
   "theorems": [
    "Ocelot.C110_cutoff_partial",
    "Ocelot.C110_recyclable",
    "Ocelot.C110_empty_row",
    "Ocelot.C110_gas",
    "Ocelot.C110_consequential_partial",
    "Ocelot.C110_targets",
    "Ocelot.C110_target_of_target"
   ],
   "note": "Proved for the cut-off model if no two datasets share a recyclable byproduct, datasets have their own places, no empty activity in the rest of the world competes with another one there, and refinery gas is sold if it is used (C110_cutoff_partial). Without the first, third or last of these it is false: C110_recyclable, C110_empty_row, C110_gas. Proved for the consequential model if constrained exchanges of different datasets lead to different datasets, none of which has constrained exchanges itself, datasets have their own places, and refinery gas is sold if it is used (C110_consequential_partial). Without the first or second of these it is false: C110_targets, C110_target_of_target."
  },
  {
   "property": "C111",
   "status": "partial",
   "theorems": [
    "Ocelot.C111_labels_partial",
    "Ocelot.C111_rejected"
   ],
   "note": "The label is accepted exactly for constrained markets and waste treatment with byproducts (C111_labels_partial). False for all other datasets, since the schema knows other texts: C111_rejected, for every dataset with another label."
  },
  {
   "property": "C112",
   "status": "partial",
   "theorems": [
    "Ocelot.C112_total_partial",
    "Ocelot.C112_total_row_partial",
    "Ocelot.C112_after_allocation",
    "Ocelot.C112_market_products_fail",
    "Ocelot.C112_cleanup",
    "Ocelot.C112_uniform_waste_fails"
   ],
   "note": "Proved for databases in which no waste byproduct has a uniform distribution (C112_total_partial, C112_total_row_partial; C112_after_allocation for whatever allocation has produced, also from activities with several reference products). C112_market_products_fail: markets with further products are rejected. False in full: C112_uniform_waste_fails, since the bounds of a waste byproduct are not exchanged when its sign is."
  },
  {
   "property": "C113",
   "status": "proved",
   "theorems": [
    "Ocelot.C113_total",
    "Ocelot.C113_after_constrained"
   ],
   "note": ""
  },
  {
   "property": "C114",
   "status": "partial",
   "theorems": [
    "Ocelot.C114_safe_partial",
    "Ocelot.C114_only_cut",
    "Ocelot.C114_stuck",
    "Ocelot.C114_uncached",
    "Ocelot.C114_repaired"
   ],
   "note": "A cached extraction never returns anything but the current data, whatever was interrupted (C114_safe_partial, under the conditions of C63 and the assumption that a pickle without its end cannot be read); that it always returns is false: a cache file that is cut short makes every cached extraction fail until a file changes (C114_stuck, C114_only_cut, C114_repaired); uncached extraction always works (C114_uncached). Not in the model: loss of file system metadata in a power failure."
  },
  {
   "property": "C115",
   "status": "partial",
   "theorems": [
    "Ocelot.C115_same_data_partial",
    "Ocelot.C115_all_finish_partial",
    "Ocelot.C115_mixture"
   ],
   "note": "Proved for every number of programs and every schedule if they write the same data (C115_same_data_partial, C115_all_finish_partial); with different data the file can become a mixture (C115_mixture)."
  },
  {
   "property": "C116",
   "status": "partial",
   "theorems": [
    "Ocelot.C116_keeps",
    "Ocelot.C116_resumed_partial",
    "Ocelot.C116_torso"
   ],
   "note": "Nothing else is ever lost (C116_keeps); the next clean-up completes an interrupted one if the interruption came between two directories or more than a week ago (C116_resumed_partial); a directory that was partly deleted counts as new for another week (C116_torso)."
  },
  {
   "property": "C117",
   "status": "partial",
   "theorems": [
    "Ocelot.C117_repaired",
    "Ocelot.C117_total",
    "Ocelot.C117_scaled_partial",
    "Ocelot.C117_normal_stale"
   ],
   "note": "The first half is proved (C117_repaired, C117_total), the second for all distributions except normal ones and uniform ones whose middle is not exactly the amount (C117_scaled_partial). For every normal distribution it is false: neither mean nor standard deviation of the description follow the amount (C117_normal_stale); for uniform distributions see C03_uniform_fails."
  },
  {
   "property": "C118",
   "status": "partial",
   "theorems": [
    "Ocelot.C118_listed_partial",
    "Ocelot.C118_exact_partial",
    "Ocelot.C118_symmetric_partial",
    "Ocelot.C118_contains",
    "Ocelot.C118_global"
   ],
   "note": "Proved for all places but the whole world (C118_listed_partial, C118_exact_partial, C118_symmetric_partial), which is said to intersect nothing although every place intersects it (C118_global)."
  },
  {
   "property": "C119",
   "status": "partial",
   "theorems": [
    "Ocelot.C119_stops",
    "Ocelot.C119_volumes_needed"
   ],
   "note": "False of the code, for every readable database in which the target of a constrained exchange has the best technology level among the activities with that product and lies in a market for it (C119_stops): the new reference product has no production volume (C80), and a market that chooses the activity asks for it (C119_volumes_needed). What succeeds without constrained markets is C113, and C113_after_constrained says what the data after this step must fulfil."
  },
  {
   "property": "C120",
   "status": "proved",
   "theorems": [
    "Ocelot.C120_normalised",
    "Ocelot.C120_idempotent",
    "Ocelot.C120_exact",
    "Ocelot.C120_not_exact"
   ],
   "note": ""
  },
  {
   "property": "C121",
   "status": "proved",
   "theorems": [
    "Ocelot.C121_bounds"
   ],
   "note": ""
  },
  {
   "property": "C122",
   "status": "proved",
   "theorems": [
    "Ocelot.C122_factors",
    "Ocelot.C122_hundred",
    "Ocelot.C122_burden",
    "Ocelot.C122_exact",
    "Ocelot.C122_each",
    "Ocelot.C122_succeeds"
   ],
   "note": ""
  },
  {
   "property": "C123",
   "status": "proved",
   "theorems": [
    "Ocelot.C123_shares",
    "Ocelot.C123_volume",
    "Ocelot.C123_exact",
    "Ocelot.C123_consumers",
    "Ocelot.C123_consumers_exact",
    "Ocelot.C123_order",
    "Ocelot.C123_consumers_order",
    "Ocelot.C123_each",
    "Ocelot.C123_consumers_each",
    "Ocelot.C123_at_most"
   ],
   "note": ""
  },
  {
   "property": "C124",
   "status": "partial",
   "theorems": [
    "Ocelot.C124_others",
    "Ocelot.C124_all_or_nothing",
    "Ocelot.C124_refused",
    "Ocelot.C124_written",
    "Ocelot.C124_written_iff",
    "Ocelot.C124_again_partial"
   ],
   "note": "Proved: other databases are never touched (C124_others), the project changes exactly if the database is returned (C124_all_or_nothing), refused imports change nothing (C124_refused), what is written is complete and equal to the datasets (C124_written), and exactly when (C124_written_iff). False: the caller's list is replaced in place, so that after any import that got past the translation, written or not, the same data cannot be imported again (C124_again_partial)."
  },
  {
   "property": "C125",
   "status": "partial",
   "theorems": [
    "Ocelot.C125_harmless",
    "Ocelot.C125_directory",
    "Ocelot.C125_apart",
    "Ocelot.C125_failure_partial",
    "Ocelot.C125_cache"
   ],
   "note": "Proved: nothing is harmed (C125_harmless), the directory is new, empty and in the right place (C125_directory, C125_apart), and the cache directory (C125_cache). False: C125_failure_partial characterises the failures exactly; a directory named by OCELOT_OUTPUT that exists but is not writeable stops the run instead of falling back, and the error is an OSError if the user's data directory cannot be made."
  },
  {
   "property": "C126",
   "status": "partial",
   "theorems": [
    "Ocelot.C126_table",
    "Ocelot.C126_all",
    "Ocelot.C126_half_updated",
    "Ocelot.C126_untouched_partial",
    "Ocelot.C126_stops"
   ],
   "note": "Proved: every dataset is recalculated or listed, in order (C126_table, C126_all). That a listed dataset is as it was holds if the references or a named parameter fail (C126_untouched_partial) and is false otherwise: the objects before the failing formula have new amounts (C126_half_updated). Errors that are not of formulas end the function (C126_stops)."
  },
  {
   "property": "C127",
   "status": "partial",
   "theorems": [
    "Ocelot.C127_zero_links",
    "Ocelot.C127_product_links",
    "Ocelot.C127_redirected",
    "Ocelot.C127_volumes",
    "Ocelot.C127_flipped",
    "Ocelot.C127_removed",
    "Ocelot.C127_deleted",
    "Ocelot.C127_purged",
    "Ocelot.C127_renamed",
    "Ocelot.C127_created",
    "Ocelot.C127_signs",
    "Ocelot.C127_normalized",
    "Ocelot.C127_confidential",
    "Ocelot.C127_methods",
    "Ocelot.C127_relabelled",
    "Ocelot.C127_unresolved",
    "Ocelot.C127_recycled",
    "Ocelot.C127_unlinked_not_deleted",
    "Ocelot.C127_lost_links",
    "Ocelot.C127_lost_levels",
    "Ocelot.C127_lost_swaps",
    "Ocelot.C127_lost_conflicts"
   ],
   "note": "Proved for the functions of the cutoff system model and of the locations: the rows are exactly the changes (up to order for C127_purged and C127_relabelled; C127_signs and C127_confidential list all that qualify, changed or not; rows of C127_volumes with volume zero describe no change). False for log_and_delete_unlinked_exchanges, which announces deletions and deletes nothing (C127_unlinked_not_deleted), and for four consequential functions whose messages go to another logger and never reach the report (C127_lost_links, C127_lost_levels, C127_lost_swaps, C127_lost_conflicts)."
  },
  {
   "property": "C128",
   "status": "partial",
   "theorems": [
    "Ocelot.C128_rows",
    "Ocelot.C128_gap",
    "Ocelot.C128_balance_partial",
    "Ocelot.C128_covered",
    "Ocelot.C128_free",
    "Ocelot.C128_exceeded",
    "Ocelot.C128_rest_of_world",
    "Ocelot.C128_rest_of_world_free",
    "Ocelot.C128_twice",
    "Ocelot.C128_group_rows",
    "Ocelot.C128_unbalanced"
   ],
   "note": "Proved: one row per market and per market group with its final volume (C128_rows, C128_group_rows); the row balances if every supplier entry has lost nothing but its hard links (C128_balance_partial), which holds for producers whose volume covers them (C128_covered, C128_free, C128_rest_of_world_free); C128_gap gives the exact difference. False otherwise: hard links above the production volume (C128_exceeded), hard-linked producers of the rest of the world (C128_rest_of_world), and markets as suppliers of market groups, whose hard links are subtracted twice (C128_twice, C128_unbalanced)."
  },
  {
   "property": "C129",
   "status": "partial",
   "theorems": [
    "Ocelot.C129_cutoff_partial",
    "Ocelot.C129_consequential_partial",
    "Ocelot.C129_amounts_partial",
    "Ocelot.C129_confidential",
    "Ocelot.C129_recycled",
    "Ocelot.C129_default",
    "Ocelot.C129_false"
   ],
   "note": "Proved for all three configurations, exceptions included, when the numbers in question are plain (no formula, variable or uncertainty), no formula refers to other objects by identifier, no activity is in the list of confidential ones and, for the cut-off models, there are no recyclable byproducts (C129_cutoff_partial, C129_consequential_partial, C129_amounts_partial). Without the last two it is false: these get fixed production volumes in any unit, so that market shares depend on the unit (C129_false, C129_confidential, C129_recycled)."
  },
  {
   "property": "C130",
   "status": "partial",
   "theorems": [
    "Ocelot.C130_exact_partial",
    "Ocelot.C130_verdict_iff",
    "Ocelot.C130_malformed"
   ],
   "note": "Proved if all files are well-formed (C130_exact_partial), with the exact condition under which there is a verdict at all (C130_verdict_iff). False otherwise: one file that is not well-formed ends the validation and no invalid file is named (C130_malformed)."
  },
  {
   "property": "C131",
   "status": "partial",
   "theorems": [
    "Ocelot.C131_commands_partial",
    "Ocelot.C131_list",
    "Ocelot.C131_validation_status"
   ],
   "note": "Proved for all commands except --list, where a schema that is given is not the empty text (C131_commands_partial). False for -l and --list, which end with a ValueError (C131_list). The exit status of the two validations does not depend on validity (C131_validation_status). The parsing of the command line by docopt is taken as given."
  },
  {
   "property": "C132",
   "status": "proved",
   "theorems": [
    "Ocelot.C132_cutoff",
    "Ocelot.C132_consequential",
    "Ocelot.C132_rest",
    "Ocelot.C132_gas"
   ],
   "note": ""
  },
  {
   "property": "C133",
   "status": "partial",
   "theorems": [
    "Ocelot.C133_hard_links",
    "Ocelot.C133_volumes",
    "Ocelot.C133_methods",
    "Ocelot.C133_rest_of_world",
    "Ocelot.C133_linked",
    "Ocelot.C133_market",
    "Ocelot.C133_markets",
    "Ocelot.C133_supplier_unnamed",
    "Ocelot.C133_consumers",
    "Ocelot.C133_complete",
    "Ocelot.C133_several",
    "Ocelot.C133_consumer_lines",
    "Ocelot.C133_recalculated"
   ],
   "note": "Proved: hard links with distinct ids, volumes, methods, relabelling (up to order), resolved links, the amounts of created inputs, inputs with one market, recalculation. False of the code: the lines about created inputs give the product where they announce the supplier, so they do not identify it (C133_supplier_unnamed); the lines about consumption give the product where they announce the market, and are written even when the volumes sum to zero and nothing is linked (C133_several). The values are not rounded to four digits, as they are in the text."
  },
  {
   "property": "C134",
   "status": "proved",
   "theorems": [
    "Ocelot.C134",
    "Ocelot.C134_anonymous",
    "Ocelot.C134_removed",
    "Ocelot.C134_injective",
    "Ocelot.C134_compared"
   ],
   "note": ""
  },
  {
   "property": "C135",
   "status": "proved",
   "theorems": [
    "Ocelot.C135_normalize",
    "Ocelot.C135_tolerance",
    "Ocelot.C135_exact_false",
    "Ocelot.C135_method",
    "Ocelot.C135_economic",
    "Ocelot.C135_recycling",
    "Ocelot.C135_waste",
    "Ocelot.C135_exact",
    "Ocelot.C135_volumes",
    "Ocelot.C135_hard_link",
    "Ocelot.C135_combined",
    "Ocelot.C135_combined_without",
    "Ocelot.C135_combined_with",
    "Ocelot.C135_uncertain",
    "Ocelot.C135_uncertain_economic"
   ],
   "note": ""
  },
  {
   "property": "C136",
   "status": "proved",
   "theorems": [
    "Ocelot.C136_price",
    "Ocelot.C136_price_shared",
    "Ocelot.C136_market",
    "Ocelot.C136_allocation",
    "Ocelot.C136_consumers"
   ],
   "note": ""
  },
  {
   "property": "C137",
   "status": "proved",
   "theorems": [
    "Ocelot.C137_economic",
    "Ocelot.C137_recycling",
    "Ocelot.C137_waste_treatment",
    "Ocelot.C137_superposition",
    "Ocelot.C137_method"
   ],
   "note": ""
  },
  {
   "property": "C138",
   "status": "partial",
   "theorems": [
    "Ocelot.C138_products",
    "Ocelot.C138_allocation",
    "Ocelot.C138_suppliers_partial",
    "Ocelot.C138_zero"
   ],
   "note": "For suppliers proved if the total production volume is not zero; false otherwise, a single supplier without volume delivers everything and two of them deliver nothing (C138_zero)."
  }
 ]
}
