{
 "claims": [
  {
   "property": "C01",
   "status": "proved",
   "theorems": [
    "Witt.C01_predict_any_labels",
    "Witt.C01_predict_is_dnf"
   ],
   "note": "Any index labels; the distinct-label case is C01_predict_is_dnf."
  },
  {
   "property": "C02",
   "status": "proved",
   "theorems": [
    "Witt.C02_depends_on_namesakes_only",
    "Witt.C02_row_independent",
    "Witt.C02_refuted_duplicate_labels"
   ],
   "note": "Any index labels, with a concrete batch with a repeated label showing the corner case."
  },
  {
   "property": "C03",
   "status": "proved",
   "theorems": [
    "Witt.C03_predict_follows_rows"
   ],
   "note": ""
  },
  {
   "property": "C04",
   "status": "proved",
   "theorems": [
    "Witt.C04_reasons_any_labels",
    "Witt.C04_reasons_are_covering_rules",
    "Witt.C04_refuted_duplicate_labels"
   ],
   "note": "Any index labels, with a concrete corner case."
  },
  {
   "property": "C05",
   "status": "proved",
   "theorems": [
    "Witt.C05_universal_and_null"
   ],
   "note": ""
  },
  {
   "property": "C06",
   "status": "proved",
   "theorems": [
    "Witt.C06_edit_monotone",
    "Witt.C06_conditions_refine"
   ],
   "note": ""
  },
  {
   "property": "C07",
   "status": "proved",
   "theorems": [
    "Witt.C07_order_and_repetition"
   ],
   "note": ""
  },
  {
   "property": "C08",
   "status": "proved",
   "theorems": [
    "Witt.C08_plain_text",
    "Witt.C08_refuted_number_vs_text",
    "Witt.C08_refuted_equals_sign",
    "Witt.C08_equal_iff_print_alike",
    "Witt.C08_equal_rulesets_predict_alike"
   ],
   "note": "Exact characterisation of ==; the two cases outside the proviso are refuted by witnesses."
  },
  {
   "property": "C09",
   "status": "proved",
   "theorems": [
    "Witt.C09_equal_rules_hash_equal",
    "Witt.C09_same_key_equal",
    "Witt.C09_refuted_repeated_conditions",
    "Witt.C09_equality_and_hash"
   ],
   "note": "Exact characterisation, with a witness for repeated conditions."
  },
  {
   "property": "C10",
   "status": "proved",
   "theorems": [
    "Witt.C10_equality_is_equivalence"
   ],
   "note": ""
  },
  {
   "property": "C100",
   "status": "proved",
   "theorems": [
    "Witt.C100_side_of_the_rules",
    "Witt.C100_criterion",
    "Witt.C100_criterion_recalibrated",
    "Witt.C100_irep_on_consistent_data",
    "Witt.C100_refuted_inconsistent_data",
    "Witt.C100_refuted_defaults"
   ],
   "note": "Refuted without the criterion: inconsistent data, and default IREP and RIPPER on consistent data."
  },
  {
   "property": "C101",
   "status": "proved",
   "theorems": [
    "Witt.C101_irep_row_order",
    "Witt.C101_irep_plain_row_order",
    "Witt.C101_fit_row_order",
    "Witt.C101_fit_plain_row_order",
    "Witt.C101_recalibrate_row_order",
    "Witt.C101_refuted"
   ],
   "note": "Refuted without the condition on first appearances, and with pruning. The API theorems assume pandas chooses break points by the values of a column, not their order (OrderFree)."
  },
  {
   "property": "C102",
   "status": "proved",
   "theorems": [
    "Witt.C102_predict",
    "Witt.C102_predict_reasons",
    "Witt.C102_predict_proba",
    "Witt.C102_predict_proba_reasons",
    "Witt.C102_batches",
    "Witt.C102_reordered",
    "Witt.C102_rule_stats_add",
    "Witt.C102_refuted_repeated_labels"
   ],
   "note": "Parts have the dtypes of the whole (as slices of a DataFrame do; a column of dtype object whose values are converted by infer_objects only in a part is outside the model). Refuted for repeated row labels."
  },
  {
   "property": "C103",
   "status": "proved",
   "theorems": [
    "Witt.C103_length",
    "Witt.C103_doubles",
    "Witt.C103_simplification",
    "Witt.C103_choice",
    "Witt.C103_pass",
    "Witt.C103_growth_within_allowance",
    "Witt.C103_growth_stops",
    "Witt.C103_plain_length",
    "Witt.C103_plain_doubles",
    "Witt.C103_plain_simplification",
    "Witt.C103_plain_choice",
    "Witt.C103_plain_pass",
    "Witt.C103_plain_growth_within_allowance",
    "Witt.C103_plain_growth_stops"
   ],
   "note": "The error of the logarithm of an integer is a hypothesis (FineFor.log_int); that of a fraction follows from the model of rounding. With cn_optimize=False the length counts a row once for each rule that covers it, as the code does, and the error bound allows for that."
  },
  {
   "property": "C104",
   "status": "proved",
   "theorems": [
    "Witt.C104_fit_one_vs_rest",
    "Witt.C104_same_answers",
    "Witt.C104_recalibrate",
    "Witt.C104_refuted_initial_model_on_class"
   ],
   "note": "The positive class is given explicitly. For cn_optimize=False the set operations must be lawful. The hypothesis on the initial model is needed (C104_refuted_initial_model_on_class)."
  },
  {
   "property": "C105",
   "status": "proved",
   "theorems": [
    "Witt.C105_gain_error",
    "Witt.C105_exact_gains",
    "Witt.C105_rounded_gains",
    "Witt.C105_doubles_gains",
    "Witt.C105_growth",
    "Witt.C105_plain_growth",
    "Witt.C105_rounded_quotients",
    "Witt.C105_exact_quotients",
    "Witt.C105_doubles_quotients",
    "Witt.C105_irep_pruning",
    "Witt.C105_ripper_pruning",
    "Witt.C105_optimisation_pruning",
    "Witt.C105_irep",
    "Witt.C105_ripper",
    "Witt.C105_irep_pruning_plain",
    "Witt.C105_ripper_pruning_plain",
    "Witt.C105_irep_plain",
    "Witt.C105_exact_shares",
    "Witt.C105_rounded_shares",
    "Witt.C105_doubles_shares",
    "Witt.C105_optimisation_pruning_plain",
    "Witt.C105_ripper_plain"
   ],
   "note": "For cn_optimize=False the index labels must be distinct, and for RIPPER the product of the numbers of rules and rows is bounded by 4*10^15. Description lengths are the subject of C103."
  },
  {
   "property": "C106",
   "status": "proved",
   "theorems": [
    "Witt.C106_growth_within_allowance",
    "Witt.C106_growth_stops_for_a_reason"
   ],
   "note": "Lengths in bits, without rounding; with rounding: C103."
  },
  {
   "property": "C107",
   "status": "proved",
   "theorems": [
    "Witt.C107_ripper_plain_errors",
    "Witt.C107_one_rule_never_raises",
    "Witt.C107_ripper_plain_fit_errors",
    "Witt.C107_one_rule_fit_on_valid_data"
   ],
   "note": "The three exceptions are witnessed by C74_refuted_ripper_plain. In the API theorem on one rule, the shared values are those of the data after binning."
  },
  {
   "property": "C108",
   "status": "proved",
   "theorems": [
    "Witt.C108_alpha_train",
    "Witt.C108_alpha_fit",
    "Witt.C108_alpha_predict",
    "Witt.C108_alpha_recalibrate",
    "Witt.C108_alpha_towards_half",
    "Witt.C108_bins_idle"
   ],
   "note": "Smoothed frequencies as exact rationals; about recalibration for objects with all attributes fit sets."
  },
  {
   "property": "C109",
   "status": "proved",
   "theorems": [
    "Witt.C109_irep",
    "Witt.C109_ripper",
    "Witt.C109_fit",
    "Witt.C109_refuted_min_one",
    "Witt.C109_irep_plain",
    "Witt.C109_ripper_plain",
    "Witt.C109_fit_plain"
   ],
   "note": "max_total_conds is left alone; the condition on min_rule_samples is needed (C109_refuted_min_one)."
  },
  {
   "property": "C11",
   "status": "proved",
   "theorems": [
    "Witt.C11_predict_outcome",
    "Witt.C11_edit_keeps_stored_features",
    "Witt.C11_refuted_stale_features",
    "Witt.C11_refuted_after_edit",
    "Witt.C11_fitted_models",
    "Witt.C11_predict_training_data"
   ],
   "note": "Exact outcome for every fitted or initialised model; the deviations after edits are proved too."
  },
  {
   "property": "C110",
   "status": "proved",
   "theorems": [
    "Witt.C110_accuracy",
    "Witt.C110_precision_recall",
    "Witt.C110_f1",
    "Witt.C110_score_parts",
    "Witt.C110_score_accuracy",
    "Witt.C110_score_precision_recall",
    "Witt.C110_refuted_f1"
   ],
   "note": "Scores as exact rationals."
  },
  {
   "property": "C111",
   "status": "proved",
   "theorems": [
    "Witt.C111_remove",
    "Witt.C111_redundant",
    "Witt.C111_add",
    "Witt.C111_refuted_duplicate_labels"
   ],
   "note": "remove_rule_at and add_rule; by-rule removal is removal at the first equal rule (C13)."
  },
  {
   "property": "C12",
   "status": "proved",
   "theorems": [
    "Witt.C12_fitted_models",
    "Witt.C12_unused_columns"
   ],
   "note": ""
  },
  {
   "property": "C13",
   "status": "proved",
   "theorems": [
    "Witt.C13_editing_is_a_list",
    "Witt.C13_by_rule_acts_on_first"
   ],
   "note": ""
  },
  {
   "property": "C14",
   "status": "proved",
   "theorems": [
    "Witt.C14_failed_edits_atomic",
    "Witt.C14_raises_iff"
   ],
   "note": ""
  },
  {
   "property": "C15",
   "status": "proved",
   "theorems": [
    "Witt.C15_roundtrip_safe",
    "Witt.C15_roundtrip_iff",
    "Witt.C15_refuted"
   ],
   "note": "An equivalence: round trip iff safe."
  },
  {
   "property": "C16",
   "status": "proved",
   "theorems": [
    "Witt.C16_parser_total_and_exact",
    "Witt.C16_one_rule_per_piece",
    "Witt.C16_rule_argument",
    "Witt.C16_none_predicts_all"
   ],
   "note": ""
  },
  {
   "property": "C17",
   "status": "proved",
   "theorems": [
    "Witt.C17_rule_covers",
    "Witt.C17_rule_covers_all",
    "Witt.C17_cond_covers",
    "Witt.C17_foreign_condition"
   ],
   "note": ""
  },
  {
   "property": "C18",
   "status": "proved",
   "theorems": [
    "Witt.C18_ruleset_covers",
    "Witt.C18_ruleset_covers_usual",
    "Witt.C18_refuted_universal_empty_subset"
   ],
   "note": "Exact, corner case included."
  },
  {
   "property": "C19",
   "status": "proved",
   "theorems": [
    "Witt.C19_growth_agrees"
   ],
   "note": ""
  },
  {
   "property": "C20",
   "status": "proved",
   "theorems": [
    "Witt.C20_growth_terminates_and_refines",
    "Witt.C20_every_run",
    "Witt.C20_greedy_choice"
   ],
   "note": ""
  },
  {
   "property": "C21",
   "status": "proved",
   "theorems": [
    "Witt.C21_grown_rule",
    "Witt.C21_ripper_distinct_features"
   ],
   "note": ""
  },
  {
   "property": "C22",
   "status": "proved",
   "theorems": [
    "Witt.C22_grown_rule_length",
    "Witt.C22_max_halt_pops",
    "Witt.C22_irep_rule_length",
    "Witt.C22_ripper_rule_length",
    "Witt.C22_refuted_ripper"
   ],
   "note": "IREP (any fit) and RIPPER with k <= 0; the excess with optimisation passes is a kernel-checked witness."
  },
  {
   "property": "C23",
   "status": "proved",
   "theorems": [
    "Witt.C23_min_rule_samples",
    "Witt.C23_min_rule_samples_index",
    "Witt.C23_refuted_pure_rule"
   ],
   "note": "Exact disjunction; witness for pure rules."
  },
  {
   "property": "C24",
   "status": "proved",
   "theorems": [
    "Witt.C24_prune_keeps_best_prefix",
    "Witt.C24_prune_empty",
    "Witt.C24_metrics",
    "Witt.C24_metrics_exact",
    "Witt.C24_prune_on_ruleset",
    "Witt.C24_prune_on_ruleset_unbound",
    "Witt.C24_metrics_of_rows",
    "Witt.C24_plain_metrics"
   ],
   "note": ""
  },
  {
   "property": "C25",
   "status": "proved",
   "theorems": [
    "Witt.C25_pruning_generalises",
    "Witt.C25_pruning_on_ruleset_generalises"
   ],
   "note": ""
  },
  {
   "property": "C26",
   "status": "proved",
   "theorems": [
    "Witt.C26_irep_fit_returns",
    "Witt.C26_irep_terminates",
    "Witt.C26_irep_rule_count"
   ],
   "note": "Every dataset, generator, limits, any prune_size."
  },
  {
   "property": "C27",
   "status": "proved",
   "theorems": [
    "Witt.C27_irep_fit_covers_positives",
    "Witt.C27_irep_covers_positives",
    "Witt.C27_irep_covers_positives_data",
    "Witt.C27_refuted_mixed_types"
   ],
   "note": "API level and labelled-frame level; witness for mixed-type columns."
  },
  {
   "property": "C28",
   "status": "proved",
   "theorems": [
    "Witt.C28_irep_step_quality",
    "Witt.C28_irep_every_rule"
   ],
   "note": "Per iteration and for every rule of a fitted model."
  },
  {
   "property": "C29",
   "status": "proved",
   "theorems": [
    "Witt.C29_fit_no_leakage",
    "Witt.C29_irep_no_leakage",
    "Witt.C29_ripper_no_leakage"
   ],
   "note": "IREP and RIPPER."
  },
  {
   "property": "C30",
   "status": "proved",
   "theorems": [
    "Witt.C30_irep_max_rules",
    "Witt.C30_ripper_max_rules"
   ],
   "note": "IREP and RIPPER."
  },
  {
   "property": "C31",
   "status": "proved",
   "theorems": [
    "Witt.C31_irep_max_total_conds",
    "Witt.C31_ripper_max_total_conds"
   ],
   "note": "IREP and RIPPER."
  },
  {
   "property": "C32",
   "status": "proved",
   "theorems": [
    "Witt.C32_remove_duplicates_predictions",
    "Witt.C32_irep_no_duplicates",
    "Witt.C32_remove_duplicates_keeps_first",
    "Witt.C32_remove_duplicates_plain",
    "Witt.C32_refuted_number_vs_text",
    "Witt.C32_ripper_no_duplicates"
   ],
   "note": "IREP and RIPPER; exact de-duplication; number-versus-text corner refuted."
  },
  {
   "property": "C33",
   "status": "proved",
   "theorems": [
    "Witt.C33_irep_keeps_initial_model"
   ],
   "note": ""
  },
  {
   "property": "C34",
   "status": "proved",
   "theorems": [
    "Witt.C34_ripper_fit_returns",
    "Witt.C34_ripper_terminates",
    "Witt.C34_ripper_rule_count"
   ],
   "note": "Every dataset, generator, prune_size, k, dl_allowance, limits, initial model."
  },
  {
   "property": "C35",
   "status": "proved",
   "theorems": [
    "Witt.C35_irep_fit_on_valid_data",
    "Witt.C35_ripper_fit_on_valid_data",
    "Witt.C35_prune_sizes",
    "Witt.C35_irep_never_raises",
    "Witt.C35_ripper_never_raises",
    "Witt.C35_ripper_prune_none",
    "Witt.C35_refuted_prune_zero",
    "Witt.C35_refuted_initial_model"
   ],
   "note": "IREP and RIPPER with cn_optimize=True, API level; the failing settings are proved (prune_size None) or witnessed. cn_optimize=False is not part of this claim."
  },
  {
   "property": "C36",
   "status": "proved",
   "theorems": [
    "Witt.C36_fit_reproducible",
    "Witt.C36_irep_reproducible",
    "Witt.C36_irep_plain_reproducible",
    "Witt.C36_ripper_plain_reproducible",
    "Witt.C36_ripper_reproducible"
   ],
   "note": "IREP and RIPPER, API level, any cn_optimize; the generator is any one whose seed call with a number resets it."
  },
  {
   "property": "C37",
   "status": "proved",
   "theorems": [
    "Witt.C37_splits",
    "Witt.C37_cut",
    "Witt.C37_frame_split"
   ],
   "note": ""
  },
  {
   "property": "C38",
   "status": "proved",
   "theorems": [
    "Witt.C38_reasons",
    "Witt.C38_recalibrated_probabilities",
    "Witt.C38_irep_probabilities",
    "Witt.C38_ripper_probabilities",
    "Witt.C38_refuted_duplicate_labels",
    "Witt.C38_irep_refuted_trimmed",
    "Witt.C38_fit_probabilities",
    "Witt.C38_recalibrate_probabilities"
   ],
   "note": "Recalibration, IREP and RIPPER; corners (repeated labels, trimmed IREP) refuted by witnesses."
  },
  {
   "property": "C39",
   "status": "proved",
   "theorems": [
    "Witt.C39_predictions_unchanged",
    "Witt.C39_counts_add_up",
    "Witt.C39_refuted_alpha_zero",
    "Witt.C39_history_keeps_predictions"
   ],
   "note": "With the partial effect of a failing call (alpha = 0) as a witness."
  },
  {
   "property": "C40",
   "status": "proved",
   "theorems": [
    "Witt.C40_refuted_min_samples_ignored",
    "Witt.C40_parameters_ignored",
    "Witt.C40_api_parameters_ignored"
   ],
   "note": "The documented protection does not exist: proved that the parameters have no effect."
  },
  {
   "property": "C41",
   "status": "proved",
   "theorems": [
    "Witt.C41_proba_iff_predict",
    "Witt.C41_refuted_init_ruleset",
    "Witt.C41_refuted_add_rule",
    "Witt.C41_fitted_models"
   ],
   "note": "Fitted models; universal refutation for init_ruleset models, witness for add_rule."
  },
  {
   "property": "C42",
   "status": "proved",
   "theorems": [
    "Witt.C42_scores",
    "Witt.C42_scores_in_unit_interval"
   ],
   "note": ""
  },
  {
   "property": "C43",
   "status": "proved",
   "theorems": [
    "Witt.C43_nCr",
    "Witt.C43_nCr_nonpos"
   ],
   "note": ""
  },
  {
   "property": "C44",
   "status": "proved",
   "theorems": [
    "Witt.C44_argmin"
   ],
   "note": ""
  },
  {
   "property": "C45",
   "status": "proved",
   "theorems": [
    "Witt.C45_num_covered_counts_firings",
    "Witt.C45_num_covered",
    "Witt.C45_num_covered_disjoint",
    "Witt.C45_refuted_overlap"
   ],
   "note": "Exact count; witness of an overlap."
  },
  {
   "property": "C46",
   "status": "proved",
   "theorems": [
    "Witt.C46_simplification",
    "Witt.C46_sublist",
    "Witt.C46_ripper_simplifies"
   ],
   "note": "In bits (real logarithms), through a bridge theorem."
  },
  {
   "property": "C47",
   "status": "proved",
   "theorems": [
    "Witt.C47_choice",
    "Witt.C47_pass",
    "Witt.C47_pass_uses_choice"
   ],
   "note": "The original rule is compared at the description length of the simplified ruleset, as the code does."
  },
  {
   "property": "C48",
   "status": "proved",
   "theorems": [
    "Witt.C48_bins_partition",
    "Witt.C48_bins_partition_full",
    "Witt.C48_transform",
    "Witt.C48_transform_monotone",
    "Witt.C48_refuted_empty_bin_dropped"
   ],
   "note": "Bins as fitted by the pandas engine; float printing and pandas' choice of break points are parameters with stated laws (PyFloat.Lawful, PandasCut.Lawful), witnessed by concrete instances."
  },
  {
   "property": "C49",
   "status": "proved",
   "theorems": [
    "Witt.C49_upper_bound_inclusive_pandas",
    "Witt.C49_numpy_placement",
    "Witt.C49_refuted_numpy_upper_bound",
    "Witt.C49_numpy_missing_is_highest"
   ],
   "note": "Both engines; the numpy deviation is proved for every threshold list."
  },
  {
   "property": "C50",
   "status": "proved",
   "theorems": [
    "Witt.C50_label_denotes_interval",
    "Witt.C50_refuted_two_dashes"
   ],
   "note": "Under PyFloat.Lawful."
  },
  {
   "property": "C51",
   "status": "proved",
   "theorems": [
    "Witt.C51_touches_only_fitted",
    "Witt.C51_second_transform",
    "Witt.C51_refuted_missing",
    "Witt.C51_refuted_no_thresholds"
   ],
   "note": "Exact; both corner cases proved."
  },
  {
   "property": "C52",
   "status": "proved",
   "theorems": [
    "Witt.C52_constructor",
    "Witt.C52_set_then_get",
    "Witt.C52_clone",
    "Witt.C52_restore",
    "Witt.C52_fit_keywords",
    "Witt.C52_clone_settings",
    "Witt.C52_refuted_min_rule_samples"
   ],
   "note": "Exact, histories included; witness that a clone can learn a different model."
  },
  {
   "property": "C53",
   "status": "proved",
   "theorems": [
    "Witt.C53_class_inference",
    "Witt.C53_pos_neg_partition"
   ],
   "note": "Exact four-way case split and the partition."
  },
  {
   "property": "C54",
   "status": "proved",
   "theorems": [
    "Witt.C54_init_model_predict",
    "Witt.C54_refuted_ranges_never_match"
   ],
   "note": "Exact condition for answering; universal statement that ranges never match raw numbers."
  },
  {
   "property": "C55",
   "status": "proved",
   "theorems": [
    "Witt.C55_trim_conds"
   ],
   "note": ""
  },
  {
   "property": "C56",
   "status": "proved",
   "theorems": [
    "Witt.C56_selected_features",
    "Witt.C56_get_conds",
    "Witt.C56_get_conds_repeats"
   ],
   "note": ""
  },
  {
   "property": "C57",
   "status": "proved",
   "theorems": [
    "Witt.C57_rule_stats"
   ],
   "note": "Per rule, exact; the examples of n_examples are C88."
  },
  {
   "property": "C58",
   "status": "proved",
   "theorems": [
    "Witt.C58_rm_rule_covers_cn",
    "Witt.C58_rm_covered"
   ],
   "note": ""
  },
  {
   "property": "C59",
   "status": "proved",
   "theorems": [
    "Witt.C59_bridge_gain",
    "Witt.C59_bridge_compare",
    "Witt.C59_gain_positive_iff",
    "Witt.C59_positive_gain_loses_negative",
    "Witt.C59_no_change_no_gain"
   ],
   "note": ""
  },
  {
   "property": "C60",
   "status": "proved",
   "theorems": [
    "Witt.C60_growth_within_allowance"
   ],
   "note": ""
  },
  {
   "property": "C61",
   "status": "proved",
   "theorems": [
    "Witt.C61_growth_stops_for_a_reason"
   ],
   "note": ""
  },
  {
   "property": "C62",
   "status": "proved",
   "theorems": [
    "Witt.C62_ripper_rejected_data",
    "Witt.C62_refuted_irep_wipes_model",
    "Witt.C62_refuted_ripper_bad_initial_model",
    "Witt.C62_ripper_plain_rejected_data",
    "Witt.C62_refuted_ripper_plain_bad_initial_model",
    "Witt.C62_refuted_irep_rejected_data"
   ],
   "note": "Exact final states for both algorithms, any cn_optimize."
  },
  {
   "property": "C63",
   "status": "proved",
   "theorems": [
    "Witt.C63_queries_are_read_only",
    "Witt.C63_answers_are_repeatable",
    "Witt.C63_refuted_classes",
    "Witt.C63_refuted_first_query_raises"
   ],
   "note": "All finite histories of queries."
  },
  {
   "property": "C64",
   "status": "proved",
   "theorems": [
    "Witt.C64_conditions_on_raw_data"
   ],
   "note": "Both algorithms, any cn_optimize."
  },
  {
   "property": "C65",
   "status": "proved",
   "theorems": [
    "Witt.C65_list_labels",
    "Witt.C65_series_by_position",
    "Witt.C65_refuted_series_wrong_length"
   ],
   "note": "List, Series of the right and of the wrong length."
  },
  {
   "property": "C66",
   "status": "proved",
   "theorems": [
    "Witt.C66_names_rename",
    "Witt.C66_refuted_names_with_class",
    "Witt.C66_names_by_position",
    "Witt.C66_fit_names_rename"
   ],
   "note": "Both directions."
  },
  {
   "property": "C67",
   "status": "proved",
   "theorems": [
    "Witt.C67_which_columns",
    "Witt.C67_other_columns_untouched"
   ],
   "note": "The upper bound on the number of bins assumes pandas returns at most n+1 break points for n quantiles."
  },
  {
   "property": "C68",
   "status": "proved",
   "theorems": [
    "Witt.C68_score_is_of_predict",
    "Witt.C68_accuracy"
   ],
   "note": "Any scoring function."
  },
  {
   "property": "C69",
   "status": "proved",
   "theorems": [
    "Witt.C69_irep_fit_reproduces_training_data",
    "Witt.C69_growth_separates",
    "Witt.C69_irep_no_false_positives",
    "Witt.C69_irep_reproduces_training_data",
    "Witt.C69_refuted_missing_value"
   ],
   "note": "Every shuffle, API level; missing-value corner refuted by a witness."
  },
  {
   "property": "C70",
   "status": "proved",
   "theorems": [
    "Witt.C70_irep_conditions_shared",
    "Witt.C70_ripper_conditions_shared",
    "Witt.C70_irep_nothing_shared",
    "Witt.C70_irep_predicts_all_true",
    "Witt.C70_ripper_nothing_shared",
    "Witt.C70_fit_conditions_shared"
   ],
   "note": "Both algorithms; set iteration order is an arbitrary oracle."
  },
  {
   "property": "C71",
   "status": "proved",
   "theorems": [
    "Witt.C71_irep_same_model",
    "Witt.C71_irep_same_growth",
    "Witt.C71_refuted_switch",
    "Witt.C71_irep_fit_same_object"
   ],
   "note": "Refinement for IREP under distinct labels; the general claim is refuted by witnesses."
  },
  {
   "property": "C72",
   "status": "proved",
   "theorems": [
    "Witt.C72_irep_plain_terminates",
    "Witt.C72_irep_plain_rule_count",
    "Witt.C72_ripper_plain_terminates",
    "Witt.C72_irep_plain_fit_returns",
    "Witt.C72_ripper_plain_fit_returns"
   ],
   "note": ""
  },
  {
   "property": "C73",
   "status": "proved",
   "theorems": [
    "Witt.C73_irep_plain_limits",
    "Witt.C73_ripper_plain_limits",
    "Witt.C73_irep_plain_covers_positives",
    "Witt.C73_irep_plain_fit_covers_positives"
   ],
   "note": ""
  },
  {
   "property": "C74",
   "status": "proved",
   "theorems": [
    "Witt.C74_irep_plain_never_raises",
    "Witt.C74_rule_of_all_conditions",
    "Witt.C74_refuted_ripper_plain",
    "Witt.C74_irep_plain_fit_on_valid_data"
   ],
   "note": "IREP: total; RIPPER: refuted by three witnesses, and the ZeroDivisionError exactly located."
  },
  {
   "property": "C75",
   "status": "proved",
   "theorems": [
    "Witt.C75_refuted_same_seed_same_model",
    "Witt.C75_same_order_same_model",
    "Witt.C75_irep_order_of_shared_values"
   ],
   "note": "The true part is C36 (any cn_optimize, one enumeration order); refuted across enumeration orders by a kernel-checked witness."
  },
  {
   "property": "C76",
   "status": "proved",
   "theorems": [
    "Witt.C76_fit_refuses",
    "Witt.C76_irep_fit_raises_iff",
    "Witt.C76_recalibrate_refuses",
    "Witt.C76_refuted_recalibrate_series",
    "Witt.C76_irep_raises_iff",
    "Witt.C76_ripper_raises_iff",
    "Witt.C76_recalibrate_raises_iff"
   ],
   "note": "The table of refusals holds for both classes and any cn_optimize, and for recalibrate_proba; completeness (no other exception) is proved for recalibrate_proba, for IREP.fit with either cn_optimize and for RIPPER.fit with cn_optimize=True. (RIPPER with cn_optimize=False raises on some valid data: C74.)"
  },
  {
   "property": "C77",
   "status": "proved",
   "theorems": [
    "Witt.C77_model_predictions",
    "Witt.C77_interpret_is_fit",
    "Witt.C77_single_answer",
    "Witt.C77_irep_interprets",
    "Witt.C77_ripper_interprets",
    "Witt.C77_interpreter_history",
    "Witt.C77_fidelity_needs",
    "Witt.C77_fidelity_of_model",
    "Witt.C77_fidelity_is_agreement",
    "Witt.C77_fidelity_of_each",
    "Witt.C77_faithful_surrogate",
    "Witt.C77_refuted_one_answer",
    "Witt.C77_rulesets_as_models"
   ],
   "note": "Answers of the foreign model are one-dimensional arrays or lists; its exceptions are among those of the model. C77_refuted_one_answer: one-row arrays. The attribute base_model is not modelled; the docstring promises a pair (interpreter, score) where the code returns the ruleset."
  },
  {
   "property": "C78",
   "status": "proved",
   "theorems": [
    "Witt.C78_apart",
    "Witt.C78_copy",
    "Witt.C78_init_ruleset",
    "Witt.C78_copy_ruleset",
    "Witt.C78_fit",
    "Witt.C78_fit_leaves_model",
    "Witt.C78_one_owner",
    "Witt.C78_edit_as_value",
    "Witt.C78_edit_ruleset_as_value",
    "Witt.C78_recalibrate_as_value",
    "Witt.C78_query_as_value",
    "Witt.C78_init_as_value",
    "Witt.C78_fit_as_value",
    "Witt.C78_fit_self_unfitted",
    "Witt.C78_refuted_failed_fit"
   ],
   "note": "Rule, Ruleset and classifier objects in a heap (Verif/Heap.lean): which objects each method copies, shares, creates and changes in place. Values inside fit are those of the value-level model (Method.fit); C78_fit_as_value and its companions tie the two models together. C78_refuted_failed_fit is the parenthesis of the statement. A list passed to Ruleset(rules) is taken not to be kept by the caller; the Rule objects a training run makes and discards are not modelled."
  },
  {
   "property": "C79",
   "status": "proved",
   "theorems": [
    "Witt.C79_conditions_permanent",
    "Witt.C79_shared_rules",
    "Witt.C79_refuted_probabilities"
   ],
   "note": "C79_refuted_probabilities is the parenthesis of the statement: predict_proba does change."
  },
  {
   "property": "C80",
   "status": "proved",
   "theorems": [
    "Witt.C80_plain_simplification",
    "Witt.C80_plain_choice",
    "Witt.C80_plain_pass",
    "Witt.C80_plain_pass_uses_choice",
    "Witt.C80_plain_fit_simplifies",
    "Witt.C80_times_covered"
   ],
   "note": "Stated for calls that succeed; C74 says which exceptions they can raise instead."
  },
  {
   "property": "C81",
   "status": "proved",
   "theorems": [
    "Witt.C81_rounded_lawful",
    "Witt.C81_prune_sizes",
    "Witt.C81_rounded_sharp",
    "Witt.C81_doubles_sharp",
    "Witt.C81_irep_fit_on_valid_data",
    "Witt.C81_ripper_fit_on_valid_data",
    "Witt.C81_irep_fit_reproduces_training_data",
    "Witt.C81_prune_size_rounded_away",
    "Witt.C81_refuted_tiny_prune_size"
   ],
   "note": "The laws (Arith.Lawful) are proved of every Rounding; Demo.doubles (53 significant bits, rounding to nearest) is one. Overflow and subnormal results are outside the format modelled. Probabilities and scores are exact rationals throughout."
  },
  {
   "property": "C82",
   "status": "proved",
   "theorems": [
    "Witt.C82_passes",
    "Witt.C82_plain_passes",
    "Witt.C82_seeded_passes",
    "Witt.C82_plain_seeded_passes",
    "Witt.C82_enough_passes",
    "Witt.C82_plain_enough_passes"
   ],
   "note": "Both implementations of the passes and of fit."
  },
  {
   "property": "C83",
   "status": "proved",
   "theorems": [
    "Witt.C83_one_line_per_rule",
    "Witt.C83_line_of_conditions",
    "Witt.C83_reads_back_iff",
    "Witt.C83_copy_by_text",
    "Witt.C83_out_model",
    "Witt.C83_truncstr",
    "Witt.C83_refuted_no_rules_from_the_right"
   ],
   "note": "print's own final line break is left out."
  },
  {
   "property": "C84",
   "status": "proved",
   "theorems": [
    "Witt.C84_fit_fails_iff",
    "Witt.C84_which_columns",
    "Witt.C84_transform",
    "Witt.C84_fit_transform",
    "Witt.C84_refuted_one_number",
    "Witt.C84_refuted_small_scale",
    "Witt.C84_refuted_empty_range"
   ],
   "note": "np.quantile, np.linspace and the rounding are arbitrary functions with monotonicity and end-point laws; NumpyCalc.exact_lawful shows the exact functions meet them."
  },
  {
   "property": "C85",
   "status": "proved",
   "theorems": [
    "Witt.C85_conditions_pull_weight",
    "Witt.C85_no_idle_conditions",
    "Witt.C85_fit_no_idle_conditions",
    "Witt.C85_refuted_redundancy"
   ],
   "note": "At the training level with any initial model (C85_conditions_pull_weight), without one (C85_no_idle_conditions) and for fit on raw tables (C85_fit_no_idle_conditions); C85_refuted_redundancy shows the limits of the claim."
  },
  {
   "property": "C86",
   "status": "proved",
   "theorems": [
    "Witt.C86_unpruned_deterministic",
    "Witt.C86_fit_unpruned",
    "Witt.C86_refuted_pruned"
   ],
   "note": "At the training level (C86_unpruned_deterministic) and for fit (C86_fit_unpruned), both values of cn_optimize; C86_refuted_pruned shows the hypothesis is needed."
  },
  {
   "property": "C87",
   "status": "proved",
   "theorems": [
    "Witt.C87_labels_irrelevant",
    "Witt.C87_unpruned_labels_irrelevant",
    "Witt.C87_same_possible_outcomes",
    "Witt.C87_answers_label_free",
    "Witt.C87_recalibrate_label_free",
    "Witt.C87_series_labels_win",
    "Witt.C87_refuted_repeated_labels"
   ],
   "note": "fit for shuffles that do not look at labels (C87_labels_irrelevant), unpruned for any shuffles, with the index as sets of possible outcomes; answers and recalibration unconditionally; repeated labels refuted."
  },
  {
   "property": "C88",
   "status": "proved",
   "theorems": [
    "Witt.C88_rule_stats_examples",
    "Witt.C88_examples_seeded",
    "Witt.C88_refuted_repeated_labels"
   ],
   "note": "For data with distinct labels; sampling is any function returning n different rows of those given (PySample.Lawful)."
  },
  {
   "property": "C89",
   "status": "proved",
   "theorems": [
    "Witt.C89_warnings_change_nothing",
    "Witt.C89_fit_warnings",
    "Witt.C89_predict_warnings",
    "Witt.C89_universal_means_always_true",
    "Witt.C89_refuted_trimmed_silently"
   ],
   "note": "Both classifiers, both values of cn_optimize, by erasing the log of the logged programs; the trimmed-to-nothing case is refuted by a witness."
  },
  {
   "property": "C90",
   "status": "proved",
   "theorems": [
    "Witt.C90_queries_only_read",
    "Witt.C90_recalibrate_only_reads",
    "Witt.C90_fit_only_reads",
    "Witt.C90_history_only_reads"
   ],
   "note": "Frames as objects at addresses with in-place operations; the code after preprocessing only reads frames and is taken from the value model."
  },
  {
   "property": "C91",
   "status": "proved",
   "theorems": [
    "Witt.C91_irep_separates_and_conquers",
    "Witt.C91_ripper_separates_and_conquers",
    "Witt.C91_optimisation_examples",
    "Witt.C91_plain_irep_separates_and_conquers",
    "Witt.C91_plain_ripper_separates_and_conquers",
    "Witt.C91_plain_optimisation_examples"
   ],
   "note": "The shuffles' parts are existentially quantified (any permutation split in two); the growing itself is described by C22/C23/C86, the cut by CutBy/BestCut."
  },
  {
   "property": "C92",
   "status": "proved",
   "theorems": [
    "Witt.C92_class_column_anywhere",
    "Witt.C92_labels_separately",
    "Witt.C92_default_class_name",
    "Witt.C92_recalibrate",
    "Witt.C92_class_column_ignored"
   ],
   "note": "Equality of the whole outcome (object, generator state, exception). For feature_names see C66; for Series with other row labels C65, C87."
  },
  {
   "property": "C93",
   "status": "proved",
   "theorems": [
    "Witt.C93_allowance_order",
    "Witt.C93_allowance_order_rounded",
    "Witt.C93_allowance",
    "Witt.C93_irep_fit",
    "Witt.C93_fewer_positives",
    "Witt.C93_learning",
    "Witt.C93_plain_learning",
    "Witt.C93_max_rules",
    "Witt.C93_plain_max_rules",
    "Witt.C93_refuted_ripper"
   ],
   "note": "Whole fits for IREP; for RIPPER the growing phases (index and DataFrames), and a kernel-checked counterexample for whole fits."
  },
  {
   "property": "C94",
   "status": "proved",
   "theorems": [
    "Witt.C94_fit_starts_afresh",
    "Witt.C94_refit",
    "Witt.C94_initial_model"
   ],
   "note": "About completed fits and exceptions; what a failed fit leaves behind does depend on the old state (C62)."
  },
  {
   "property": "C95",
   "status": "proved",
   "theorems": [
    "Witt.C95_fit_recoded",
    "Witt.C95_columns_renamed",
    "Witt.C95_answers_recoded",
    "Witt.C95_fit_then_predict",
    "Witt.C95_refuted_colliding_names"
   ],
   "note": "Whole fits of all four methods and all queries except rule_stats (which prints names); feature_names is not given. Counterexample for colliding texts."
  },
  {
   "property": "C96",
   "status": "proved",
   "theorems": [
    "Witt.C96_recalibrated",
    "Witt.C96_fitted",
    "Witt.C96_exact"
   ],
   "note": "Calibration, predict_proba and the four trainings with the arithmetic of probabilities as a parameter; with exact arithmetic they are the functions of C38 (C96_exact). Overflow and subnormal numbers are excluded by hypotheses. Together with C38 this gives the meaning of the rounded probabilities."
  },
  {
   "property": "C97",
   "status": "proved",
   "theorems": [
    "Witt.C97_irep_verbosity",
    "Witt.C97_ripper_verbosity",
    "Witt.C97_levels",
    "Witt.C97_irep_last_ruleset",
    "Witt.C97_ripper_last_ruleset",
    "Witt.C97_refuted_no_column",
    "Witt.C97_refuted_ripper_prune_zero",
    "Witt.C97_irep_plain_verbosity",
    "Witt.C97_ripper_plain_verbosity",
    "Witt.C97_plain_levels",
    "Witt.C97_irep_plain_last_ruleset",
    "Witt.C97_ripper_plain_last_ruleset",
    "Witt.C97_refuted_ripper_plain_prune_zero"
   ],
   "note": "The training programs with their print calls (which evaluate their arguments and may raise), related to the quiet programs call by call, for both values of cn_optimize. The wording of the lines is not modelled, nor are the print calls of discretisation and of out_pretty's layout."
  },
  {
   "property": "C98",
   "status": "proved",
   "theorems": [
    "Witt.C98_irep_superfluous_column",
    "Witt.C98_irep_unused",
    "Witt.C98_irep_same_answers",
    "Witt.C98_refuted_ripper",
    "Witt.C98_refuted_copy_first",
    "Witt.C98_fit_superfluous_column",
    "Witt.C98_fit_then_predict",
    "Witt.C98_irep_plain_superfluous_column",
    "Witt.C98_irep_plain_unused",
    "Witt.C98_irep_plain_same_answers"
   ],
   "note": "Growing on the data with and without the column is shown equal step by step: candidates on a constant column have gain at most 0, those on a repeated one at most that of an earlier candidate. cn_optimize=False: for every lawful enumeration of sets. Through fit, the column (and the one it repeats) must be one that discretisation leaves alone. Refuted for RIPPER by a dataset of six rows."
  },
  {
   "property": "C99",
   "status": "proved",
   "theorems": [
    "Witt.C99_new_rules",
    "Witt.C99_train_again",
    "Witt.C99_fit_again",
    "Witt.C99_refuted_max_rules",
    "Witt.C99_refuted_unseeded",
    "Witt.C99_refuted_ripper"
   ],
   "note": "The loop is shown to commute with putting rules in front of its state (or to stop earlier, with limits); removing duplicates and trimming are shown stable under repetition. Refuted for RIPPER by a dataset of ten rows."
  }
 ]
}