#!/usr/bin/env python3
"""Writes /verif/MANIFEST.json from the theorem names in lean/Verif/Props and the table below."""
import glob, json, os, re
ROOT = os.path.dirname(os.path.dirname(os.path.abspath(__file__)))
# property -> (status, note); every other property with theorems is "proved"
NOTES = {
 "C128": ("partial", "Proved: one row per market and per market group with its final volume (C128_rows, C128_group_rows); the row balances if every supplier entry has lost nothing but its hard links (C128_balance_partial), which holds for producers whose volume covers them (C128_covered, C128_free, C128_rest_of_world_free); C128_gap gives the exact difference. False otherwise: hard links above the production volume (C128_exceeded), hard-linked producers of the rest of the world (C128_rest_of_world), and markets as suppliers of market groups, whose hard links are subtracted twice (C128_twice, C128_unbalanced)."),
 "C127": ("partial", "Proved for the functions of the cutoff system model and of the locations: the rows are exactly the changes (up to order for C127_purged and C127_relabelled; C127_signs and C127_confidential list all that qualify, changed or not; rows of C127_volumes with volume zero describe no change). False for log_and_delete_unlinked_exchanges, which announces deletions and deletes nothing (C127_unlinked_not_deleted), and for four consequential functions whose messages go to another logger and never reach the report (C127_lost_links, C127_lost_levels, C127_lost_swaps, C127_lost_conflicts)."),
 "C124": ("partial", "Proved: other databases are never touched (C124_others), the project changes exactly if the database is returned (C124_all_or_nothing), refused imports change nothing (C124_refused), what is written is complete and equal to the datasets (C124_written), and exactly when (C124_written_iff). False: the caller's list is replaced in place, so that after any import that got past the translation, written or not, the same data cannot be imported again (C124_again_partial)."),
 "C125": ("partial", "Proved: nothing is harmed (C125_harmless), the directory is new, empty and in the right place (C125_directory, C125_apart), and the cache directory (C125_cache). False: C125_failure_partial characterises the failures exactly; a directory named by OCELOT_OUTPUT that exists but is not writeable stops the run instead of falling back, and the error is an OSError if the user's data directory cannot be made."),
 "C126": ("partial", "Proved: every dataset is recalculated or listed, in order (C126_table, C126_all). That a listed dataset is as it was holds if the references or a named parameter fail (C126_untouched_partial) and is false otherwise: the objects before the failing formula have new amounts (C126_half_updated). Errors that are not of formulas end the function (C126_stops)."),
 "C95": ("partial", "Proved if refinery gas has a market outside the rest of the world or is not used, and otherwise for every exchange that is not refinery gas (C95_linked_product_partial). False for refinery gas without a market: a complete run links it to the market for steel (C95_wrong_product)."),
 "C98": ("partial", "Proved if refinery gas has a market outside the rest of the world or is not used, and otherwise for every exchange that is not refinery gas (C98_linked_product_partial). False for refinery gas without a market (C98_wrong_product)."),
 "C101": ("partial", "False as stated. A file path with a directory separator stops the run with an OSError as soon as a dataset is followed (C101_follow_path), and datasets whose path contains the text are saved too (C101_other_file). That a text without separator saves exactly the datasets whose path contains it is part of C100_files_of_run."),
 "C102": ("partial", "Independence of the directories is proved (C102_independent), fresh content under the assumptions of C63 (C102_fresh_partial; see C63 for what fails without them)."),
 "C103": ("partial", "C103_conforms characterises exactly which ecospold2 elements give data that pass validation, C103_same_data that both models of extraction agree. The property is false for valid ecospold2 datasets with gamma distributions (C103_gamma), with other exchange groups (C103_groups) or without access restriction (C103_access: extraction fails)."),
 "C104": ("partial", "C104_no_errors proves the first half. The second is false: errors are kept per message, so that the number is that of the different messages (C104_count) and of datasets with the same message only the last is reported (C104_report, C104_same_message)."),
 "C105": ("partial", "What is changed is proved exactly (C105_refinery, C105_pipeline, C105_link, C105_formulas). That the new text has the same value holds for two of the numbers up to rounding (C105_numbers_partial) and is false for the third: 152 million pounds become 68949040.24 kg, three tonnes too much (C105_pounds). The fourth replacement is a conditional with the same value wherever the old one has a value."),
 "C109": ("partial", "The export of a cut-off result succeeds exactly if its inputs and byproducts are linked and its elementary exchanges have compartments (C109_cutoff_partial), and is then square up to the deleted datasets of C90 (C109_square). False in full: inputs without a market that lies in or around the consumer stay unlinked and make the export fail (C109_unlinked), and the consequential model never links reference products, so that none of its results can be exported unless all products are constrained or refinery gas (C109_consequential, for all inputs)."),
 "C110": ("partial", "Proved for the cut-off model if no two datasets share a recyclable byproduct, datasets have their own places, no empty activity in the rest of the world competes with another one there, and refinery gas is sold if it is used (C110_cutoff_partial). Without the first, third or last of these it is false: C110_recyclable, C110_empty_row, C110_gas. Proved for the consequential model if constrained exchanges of different datasets lead to different datasets, none of which has constrained exchanges itself, datasets have their own places, and refinery gas is sold if it is used (C110_consequential_partial). Without the first or second of these it is false: C110_targets, C110_target_of_target."),
 "C111": ("partial", "The label is accepted exactly for constrained markets and waste treatment with byproducts (C111_labels_partial). False for all other datasets, since the schema knows other texts: C111_rejected, for every dataset with another label."),
 "C112": ("partial", "Proved for databases in which no waste byproduct has a uniform distribution (C112_total_partial, C112_total_row_partial; C112_after_allocation for whatever allocation has produced, also from activities with several reference products). C112_market_products_fail: markets with further products are rejected. False in full: C112_uniform_waste_fails, since the bounds of a waste byproduct are not exchanged when its sign is."),
 "C90": ("partial", "Every link leads to a dataset that was given a code, and which is in the result unless it is located in the rest of the world (C90_links_partial). False in full: a link to a global dataset without production dangles, since the dataset is deleted after it was linked (C90_dangling)."),
 "C82": ("partial", "False of the code: extraction puts the matrix inside the uncertainty, the other functions look for it beside it (C82_never_found for every extracted number; C82_adjustment_does_nothing)."),
 "C63": ("partial", "Proved for every history with an advancing clock in which no file changes during an extraction and no hidden file ends in .spold, for directories that are not empty (C63_fresh_partial). Outside these it is false: C63_emptied (ValueError), C63_hidden and C63_during (stale data)."),
 "C65": ("partial", "Exact deletion is proved when no link to a directory is older than a week (C65_exact_partial); files, links and younger directories are never deleted in any case (C65_keeps). An old link makes the clean-up fail halfway (C65_link)."),
 "C70": ("partial", "The substitution check is exact (C70_substitution). The second half is false of the code: the set of constrained activities is computed and never used, every activity link of an ordinary exchange is deleted (C70_links, C70_all_links_deleted); C70_links_partial is what remains."),
 "C80": ("partial", "False of the code: the new reference product is a former input, which has no production volume (C80_no_volume, for every swap)."),
 "C81": ("partial", "switch_undefined_to_current does what it says (C81_switch_partial, C81_levels_partial) but no configuration calls it, so that a market with only undefined suppliers stops the run (C81_undefined_stops)."),
 "C61": ("partial", "The forms first:last:step, every N and single numbers are proved exact. The documented default (every fifth) is not what the code does (every thousandth): C61_default."),
 "C62": ("partial", "Proved for every configuration that is a list or Collection of functions (C62_run_partial, C62_failure, C62_interrupted, with C62_cases showing that these are all cases). A nested configuration passes validation and then always ends with a TypeError: C62_nested."),
 "C79": ("partial", "Only the last run's file is its own (C79_last_partial). In general it is false: handlers are never removed, so that an earlier run's file also receives every later record (C79_files, C79_false)."),
 "C53": ("partial", "The check itself is exact (C53_unique_exact). The second half is proved as an exact criterion (C53_after_partial: afterwards the names differ iff they differed regardless of case once references were named). That the names always differ afterwards is false of the code: C53_lowercase_merges, C53_reference_name_taken."),
 "C55": ("partial", "Termination and absence of remaining conditionals are proved for every formula; the translation of arbitrarily nested conditionals is proved when no other semicolons occur inside them (C55_tree_partial). With power(a;b) inside a conditional it is false: C55_power_inside."),
 "C58": ("partial", "Proved when no reserved word is part of a longer identifier (C58_whole_words_partial, C58_parsable_partial, and C58_exact_partial for the exact resulting text) and, without hypothesis, that the result parses or is the original (C58_parses_or_unchanged). With a longer identifier the replacement also changes that identifier: C58_longer_identifier."),
 "C78": ("partial", "Termination is proved for every formula; the translation is proved for different clauses and no other closing bracket behind a clause (C78_powers_partial). Otherwise the function crashes: C78_bracket_crash, C78_repeated_crash."),
 "C46": ("partial", "Conservation of every flow is proved unless a dataset has two equal inputs of refinery gas and nobody sells it (C46_conserves_partial), linking to the right product for all data in which an unlinked input of refinery gas has a market (C46_right_product_partial). Otherwise both fail, because a variable of the previous iteration is reused: C46_gas_lost, C46_wrong_product, or is unbound (C46_unbound)."),
 "C47": ("partial", "C47_geography_partial proves the choice in full (inside, maximal, larger first, else the smallest around); disjointness holds when no RoW market meets market groups of the same product (C47_disjoint). Otherwise it is false of the code: C47_row_overlap."),
 "C114": ("partial", "A cached extraction never returns anything but the current data, whatever was interrupted (C114_safe_partial, under the conditions of C63 and the assumption that a pickle without its end cannot be read); that it always returns is false: a cache file that is cut short makes every cached extraction fail until a file changes (C114_stuck, C114_only_cut, C114_repaired); uncached extraction always works (C114_uncached). Not in the model: loss of file system metadata in a power failure."),
 "C115": ("partial", "Proved for every number of programs and every schedule if they write the same data (C115_same_data_partial, C115_all_finish_partial); with different data the file can become a mixture (C115_mixture)."),
 "C116": ("partial", "Nothing else is ever lost (C116_keeps); the next clean-up completes an interrupted one if the interruption came between two directories or more than a week ago (C116_resumed_partial); a directory that was partly deleted counts as new for another week (C116_torso)."),
 "C117": ("partial", "The first half is proved (C117_repaired, C117_total), the second for all distributions except normal ones and uniform ones whose middle is not exactly the amount (C117_scaled_partial). For every normal distribution it is false: neither mean nor standard deviation of the description follow the amount (C117_normal_stale); for uniform distributions see C03_uniform_fails."),
 "C119": ("partial", "False of the code, for every readable database in which the target of a constrained exchange has the best technology level among the activities with that product and lies in a market for it (C119_stops): the new reference product has no production volume (C80), and a market that chooses the activity asks for it (C119_volumes_needed). What succeeds without constrained markets is C113, and C113_after_constrained says what the data after this step must fulfil."),
 "C118": ("partial", "Proved for all places but the whole world (C118_listed_partial, C118_exact_partial, C118_symmetric_partial), which is said to intersect nothing although every place intersects it (C118_global)."),
 "C129": ("partial", "Proved for all three configurations, exceptions included, when the numbers in question are plain (no formula, variable or uncertainty), no formula refers to other objects by identifier, no activity is in the list of confidential ones and, for the cut-off models, there are no recyclable byproducts (C129_cutoff_partial, C129_consequential_partial, C129_amounts_partial). Without the last two it is false: these get fixed production volumes in any unit, so that market shares depend on the unit (C129_false, C129_confidential, C129_recycled)."),
 "C130": ("partial", "Proved if all files are well-formed (C130_exact_partial), with the exact condition under which there is a verdict at all (C130_verdict_iff). False otherwise: one file that is not well-formed ends the validation and no invalid file is named (C130_malformed)."),
 "C131": ("partial", "Proved for all commands except --list, where a schema that is given is not the empty text (C131_commands_partial). False for -l and --list, which end with a ValueError (C131_list). The exit status of the two validations does not depend on validity (C131_validation_status). The parsing of the command line by docopt is taken as given."),
 "C133": ("partial", "Proved: hard links with distinct ids, volumes, methods, relabelling (up to order), resolved links, the amounts of created inputs, inputs with one market, recalculation. False of the code: the lines about created inputs give the product where they announce the supplier, so they do not identify it (C133_supplier_unnamed); the lines about consumption give the product where they announce the market, and are written even when the volumes sum to zero and nothing is linked (C133_several). The values are not rounded to four digits, as they are in the text."),
 "C138": ("partial", "For suppliers proved if the total production volume is not zero; false otherwise, a single supplier without volume delivers everything and two of them deliver nothing (C138_zero)."),
 "C48": ("partial", "False of the code: the list comprehension tests the dataset's code instead of the exchange's, so on datasets with codes nothing is deleted (C48_deletes_nothing, C48_unlinked_remain, for all data). C48_partial is what remains true."),
 "C49": ("partial", "Uniqueness and the exact condition of the error are proved (C49_unique, C49_identical); that different datasets are not rejected is false without separators between the concatenated fields (C49_false_alarm) and proved up to the concatenation (C49_different_partial)."),
 "C39": ("partial", "Every entry describes a supplier inside the market (C39_only_inside, no further hypothesis); that every such supplier is listed exactly once is proved when at most one same-named supplier of the product is in RoW (C39_exactly_inside_partial). With two it is false: the earlier one is silently dropped (C39_duplicate_row_dropped); no supplier at a named place inside the market is ever missing (C39_named_places, without that condition)."),
 "C45": ("partial", "Proved in full for suppliers at named places (C45_good_choice_partial: same product, inside, pairwise disjoint, not the group itself, maximal, larger first, market preferred). The clauses that involve the resolved RoW market are false of the code: it can be missing from the global group (C45_row_missing) and it can be chosen together with a market group that overlaps it (C45_row_overlap)."),
 "C51": ("partial", "Exact removal is proved for every list (C51_exact, C51_removed, C51_total). The clause that every product keeps a dataset is proved for lists without equal datasets (C51_one_left_partial); with equal copies it is false, because the code compares by value (C51_duplicates_all_removed)."),
 "C05": ("partial", "The variance half holds (C05_normal_scale_partial). The location half is false of the code: Normal.rescale never updates the stored mean that to_stats_arrays reads; C05_location_stale proves the failure for every factor and amount, C05_location_triangular that triangular does not have the problem."),
 "C06": ("partial", "Idempotence holds for every distribution except at the lognormal boundary (C06_repair_idempotent_partial has that side condition); C06_lognormal_not_idempotent exhibits a lognormal for which the second repair changes the object again."),
 "C26": ("partial", "Dispatch and the one-reference-product half are proved in full (C26_dispatch, C26_one_reference_product). The no-live-byproduct half is proved for datasets whose zero-amount allocatable byproducts have no formula (C26_no_live_byproduct_partial); with a formula it is false, C26_live_byproduct_after_recalculation is a witness."),
 "C27": ("partial", "False of the code: the function returns a dictionary, so cutoff_allocation never returns on data with a constrained market (C27_constrained_market_never_returns, for all data); only the effect of the unwrapped function is as documented (C27_zero_conditional_partial)."),
 "C09": ("partial", "Non-negativity, bounds and monotonicity proved for score matrices with the expected keys; matrices as written by the extractor lack a required key, so the lookup raises KeyError (C09_extracted_matrix_fails, for all scores)."),
}
names = {}
for f in sorted(glob.glob(ROOT + "/lean/Verif/Props/*.lean")):
    ns = None
    for line in open(f, encoding="utf8"):
        m = re.match(r"theorem (C\d\d\w*)", line)
        if m:
            names.setdefault(m.group(1).split("_")[0], []).append("Ocelot." + m.group(1))
props = [json.loads(l) for l in open(ROOT + "/properties.jsonl")]
claims = []
for p in props:
    i = p["id"]
    if i not in names and NOTES.get(i, ("",))[0] != "not_applicable":
        continue
    status, note = NOTES.get(i, ("proved", ""))
    claims.append({"property": i, "status": status, "theorems": names.get(i, []), "note": note})
json.dump({"claims": claims}, open(ROOT + "/MANIFEST.json", "w"), indent=1, ensure_ascii=False)
open(ROOT + "/MANIFEST.json", "a").write("\n")
print(len(claims), "claims,", sum(len(c["theorems"]) for c in claims), "theorems; missing:",
      [p["id"] for p in props if p["id"] not in names])
