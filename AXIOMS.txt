Witt.C01_predict_any_labels: propext, Classical.choice, Quot.sound
Witt.C01_predict_is_dnf: propext, Quot.sound
Witt.C02_depends_on_namesakes_only: propext, Classical.choice, Quot.sound
Witt.C02_row_independent: propext, Quot.sound
Witt.C02_refuted_duplicate_labels: propext, Quot.sound
Witt.C03_predict_follows_rows: propext, Classical.choice, Quot.sound
Witt.C04_reasons_any_labels: propext, Classical.choice, Quot.sound
Witt.C04_reasons_are_covering_rules: propext, Classical.choice, Quot.sound
Witt.C04_refuted_duplicate_labels: propext
Witt.C05_universal_and_null: propext, Classical.choice, Quot.sound
Witt.C06_edit_monotone: propext, Quot.sound
Witt.C06_conditions_refine: propext, Quot.sound
Witt.C07_order_and_repetition: propext, Classical.choice, Quot.sound
Witt.C08_plain_text: propext, Classical.choice, Quot.sound
Witt.C08_refuted_number_vs_text: propext, Quot.sound
Witt.C08_refuted_equals_sign: propext
Witt.C08_equal_iff_print_alike: propext, Quot.sound
Witt.C08_equal_rulesets_predict_alike: propext, Classical.choice, Quot.sound
Witt.C09_equal_rules_hash_equal: propext, Classical.choice, Quot.sound
Witt.C09_same_key_equal: propext, Classical.choice, Quot.sound
Witt.C09_refuted_repeated_conditions: none
Witt.C09_equality_and_hash: propext, Classical.choice, Quot.sound
Witt.C10_equality_is_equivalence: propext, Classical.choice, Quot.sound
Witt.C100_side_of_the_rules: propext, Classical.choice, Quot.sound
Witt.C100_criterion: propext, Classical.choice, Quot.sound
Witt.C100_criterion_recalibrated: propext, Classical.choice, Quot.sound
Witt.C100_irep_on_consistent_data: propext, Classical.choice, Quot.sound
Witt.C100_refuted_inconsistent_data: propext, Classical.choice, Quot.sound
Witt.C100_refuted_defaults: propext, Classical.choice, Quot.sound
Witt.C101_irep_row_order: propext, Classical.choice, Quot.sound
Witt.C101_irep_plain_row_order: propext, Classical.choice, Quot.sound
Witt.C101_fit_row_order: propext, Classical.choice, Quot.sound
Witt.C101_fit_plain_row_order: propext, Classical.choice, Quot.sound
Witt.C101_recalibrate_row_order: propext, Classical.choice, Quot.sound
Witt.C101_refuted: propext, Classical.choice, Quot.sound
Witt.C102_predict: propext, Classical.choice, Quot.sound
Witt.C102_predict_reasons: propext, Classical.choice, Quot.sound
Witt.C102_predict_proba: propext, Classical.choice, Quot.sound
Witt.C102_predict_proba_reasons: propext, Classical.choice, Quot.sound
Witt.C102_batches: propext
Witt.C102_reordered: propext, Quot.sound
Witt.C102_rule_stats_add: propext, Classical.choice, Quot.sound
Witt.C102_refuted_repeated_labels: propext, Classical.choice, Quot.sound
Witt.C103_length: propext, Classical.choice, Quot.sound
Witt.C103_doubles: propext, Classical.choice, Quot.sound
Witt.C103_simplification: propext, Classical.choice, Quot.sound
Witt.C103_choice: propext, Classical.choice, Quot.sound
Witt.C103_pass: propext, Classical.choice, Quot.sound
Witt.C103_growth_within_allowance: propext, Classical.choice, Quot.sound
Witt.C103_growth_stops: propext, Classical.choice, Quot.sound
Witt.C103_plain_length: propext, Classical.choice, Quot.sound
Witt.C103_plain_doubles: propext, Classical.choice, Quot.sound
Witt.C103_plain_simplification: propext, Classical.choice, Quot.sound
Witt.C103_plain_choice: propext, Classical.choice, Quot.sound
Witt.C103_plain_pass: propext, Classical.choice, Quot.sound
Witt.C103_plain_growth_within_allowance: propext, Classical.choice, Quot.sound
Witt.C103_plain_growth_stops: propext, Classical.choice, Quot.sound
Witt.C104_fit_one_vs_rest: propext, Classical.choice, Quot.sound
Witt.C104_same_answers: propext, Classical.choice, Quot.sound
Witt.C104_recalibrate: propext, Classical.choice, Quot.sound
Witt.C104_refuted_initial_model_on_class: propext, Classical.choice, Quot.sound
Witt.C105_gain_error: propext, Classical.choice, Quot.sound
Witt.C105_exact_gains: propext, Classical.choice, Quot.sound
Witt.C105_rounded_gains: propext, Classical.choice, Quot.sound
Witt.C105_doubles_gains: propext, Classical.choice, Quot.sound
Witt.C105_growth: propext, Classical.choice, Quot.sound
Witt.C105_plain_growth: propext, Classical.choice, Quot.sound
Witt.C105_rounded_quotients: propext, Classical.choice, Quot.sound
Witt.C105_exact_quotients: propext, Classical.choice, Quot.sound
Witt.C105_doubles_quotients: propext, Classical.choice, Quot.sound
Witt.C105_irep_pruning: propext, Classical.choice, Quot.sound
Witt.C105_ripper_pruning: propext, Classical.choice, Quot.sound
Witt.C105_optimisation_pruning: propext, Classical.choice, Quot.sound
Witt.C105_irep: propext, Classical.choice, Quot.sound
Witt.C105_ripper: propext, Classical.choice, Quot.sound
Witt.C105_irep_pruning_plain: propext, Classical.choice, Quot.sound
Witt.C105_ripper_pruning_plain: propext, Classical.choice, Quot.sound
Witt.C105_irep_plain: propext, Classical.choice, Quot.sound
Witt.C105_exact_shares: propext, Classical.choice, Quot.sound
Witt.C105_rounded_shares: propext, Classical.choice, Quot.sound
Witt.C105_doubles_shares: propext, Classical.choice, Quot.sound
Witt.C105_optimisation_pruning_plain: propext, Classical.choice, Quot.sound
Witt.C105_ripper_plain: propext, Classical.choice, Quot.sound
Witt.C106_growth_within_allowance: propext, Classical.choice, Quot.sound
Witt.C106_growth_stops_for_a_reason: propext, Classical.choice, Quot.sound
Witt.C107_ripper_plain_errors: propext, Classical.choice, Quot.sound
Witt.C107_one_rule_never_raises: propext, Classical.choice, Quot.sound
Witt.C107_ripper_plain_fit_errors: propext, Classical.choice, Quot.sound
Witt.C107_one_rule_fit_on_valid_data: propext, Classical.choice, Quot.sound
Witt.C108_alpha_train: propext, Classical.choice, Quot.sound
Witt.C108_alpha_fit: propext, Classical.choice, Quot.sound
Witt.C108_alpha_predict: propext, Classical.choice, Quot.sound
Witt.C108_alpha_recalibrate: propext, Classical.choice, Quot.sound
Witt.C108_alpha_towards_half: propext, Classical.choice, Quot.sound
Witt.C108_bins_idle: propext, Classical.choice, Quot.sound
Witt.C109_irep: propext, Classical.choice, Quot.sound
Witt.C109_ripper: propext, Classical.choice, Quot.sound
Witt.C109_fit: propext, Classical.choice, Quot.sound
Witt.C109_refuted_min_one: propext, Classical.choice, Quot.sound
Witt.C109_irep_plain: propext, Classical.choice, Quot.sound
Witt.C109_ripper_plain: propext, Classical.choice, Quot.sound
Witt.C109_fit_plain: propext, Classical.choice, Quot.sound
Witt.C11_predict_outcome: propext, Classical.choice, Quot.sound
Witt.C11_edit_keeps_stored_features: propext
Witt.C11_refuted_stale_features: propext, Classical.choice, Quot.sound
Witt.C11_refuted_after_edit: propext, Classical.choice, Quot.sound
Witt.C11_fitted_models: propext, Classical.choice, Quot.sound
Witt.C11_predict_training_data: propext, Classical.choice, Quot.sound
Witt.C110_accuracy: propext, Classical.choice, Quot.sound
Witt.C110_precision_recall: propext, Classical.choice, Quot.sound
Witt.C110_f1: propext, Classical.choice, Quot.sound
Witt.C110_score_parts: propext, Classical.choice, Quot.sound
Witt.C110_score_accuracy: propext, Classical.choice, Quot.sound
Witt.C110_score_precision_recall: propext, Classical.choice, Quot.sound
Witt.C110_refuted_f1: propext, Classical.choice, Quot.sound
Witt.C111_remove: propext, Classical.choice, Quot.sound
Witt.C111_redundant: propext, Classical.choice, Quot.sound
Witt.C111_add: propext, Classical.choice, Quot.sound
Witt.C111_refuted_duplicate_labels: propext
Witt.C12_fitted_models: propext, Classical.choice, Quot.sound
Witt.C12_unused_columns: propext, Classical.choice, Quot.sound
Witt.C13_editing_is_a_list: propext, Classical.choice, Quot.sound
Witt.C13_by_rule_acts_on_first: propext, Classical.choice, Quot.sound
Witt.C14_failed_edits_atomic: propext, Classical.choice, Quot.sound
Witt.C14_raises_iff: propext, Classical.choice, Quot.sound
Witt.C15_roundtrip_safe: propext, Quot.sound
Witt.C15_roundtrip_iff: propext, Classical.choice, Quot.sound
Witt.C15_refuted: propext, Quot.sound
Witt.C16_parser_total_and_exact: propext, Quot.sound
Witt.C16_one_rule_per_piece: propext, Quot.sound
Witt.C16_rule_argument: propext, Quot.sound
Witt.C16_none_predicts_all: propext, Classical.choice, Quot.sound
Witt.C17_rule_covers: propext, Classical.choice, Quot.sound
Witt.C17_rule_covers_all: propext, Classical.choice, Quot.sound
Witt.C17_cond_covers: propext, Classical.choice, Quot.sound
Witt.C17_foreign_condition: propext, Classical.choice, Quot.sound
Witt.C18_ruleset_covers: propext, Classical.choice, Quot.sound
Witt.C18_ruleset_covers_usual: propext, Classical.choice, Quot.sound
Witt.C18_refuted_universal_empty_subset: propext, Quot.sound
Witt.C19_growth_agrees: propext, Classical.choice, Quot.sound
Witt.C20_growth_terminates_and_refines: propext, Classical.choice, Quot.sound
Witt.C20_every_run: propext, Classical.choice, Quot.sound
Witt.C20_greedy_choice: propext, Classical.choice, Quot.sound
Witt.C21_grown_rule: propext, Classical.choice, Quot.sound
Witt.C21_ripper_distinct_features: propext, Classical.choice, Quot.sound
Witt.C22_grown_rule_length: propext, Classical.choice, Quot.sound
Witt.C22_max_halt_pops: propext, Classical.choice, Quot.sound
Witt.C22_irep_rule_length: propext, Classical.choice, Quot.sound
Witt.C22_ripper_rule_length: propext, Classical.choice, Quot.sound
Witt.C22_refuted_ripper: propext, Classical.choice, Quot.sound
Witt.C23_min_rule_samples: propext, Classical.choice, Quot.sound
Witt.C23_min_rule_samples_index: propext, Classical.choice, Quot.sound
Witt.C23_refuted_pure_rule: propext, Classical.choice, Quot.sound
Witt.C24_prune_keeps_best_prefix: propext, Classical.choice, Quot.sound
Witt.C24_prune_empty: propext, Quot.sound
Witt.C24_metrics: propext, Quot.sound
Witt.C24_metrics_exact: propext, Classical.choice, Quot.sound
Witt.C24_prune_on_ruleset: propext, Classical.choice, Quot.sound
Witt.C24_prune_on_ruleset_unbound: propext, Classical.choice, Quot.sound
Witt.C24_metrics_of_rows: propext, Classical.choice, Quot.sound
Witt.C24_plain_metrics: propext, Quot.sound
Witt.C25_pruning_generalises: propext, Quot.sound
Witt.C25_pruning_on_ruleset_generalises: propext, Classical.choice, Quot.sound
Witt.C26_irep_fit_returns: propext, Classical.choice, Quot.sound
Witt.C26_irep_terminates: propext, Classical.choice, Quot.sound
Witt.C26_irep_rule_count: propext, Classical.choice, Quot.sound
Witt.C27_irep_fit_covers_positives: propext, Classical.choice, Quot.sound
Witt.C27_irep_covers_positives: propext, Classical.choice, Quot.sound
Witt.C27_irep_covers_positives_data: propext, Classical.choice, Quot.sound
Witt.C27_refuted_mixed_types: propext, Classical.choice, Quot.sound
Witt.C28_irep_step_quality: propext, Classical.choice, Quot.sound
Witt.C28_irep_every_rule: propext, Classical.choice, Quot.sound
Witt.C29_fit_no_leakage: propext, Classical.choice, Quot.sound
Witt.C29_irep_no_leakage: propext, Classical.choice, Quot.sound
Witt.C29_ripper_no_leakage: propext, Classical.choice, Quot.sound
Witt.C30_irep_max_rules: propext, Classical.choice, Quot.sound
Witt.C30_ripper_max_rules: propext, Classical.choice, Quot.sound
Witt.C31_irep_max_total_conds: propext, Classical.choice, Quot.sound
Witt.C31_ripper_max_total_conds: propext, Classical.choice, Quot.sound
Witt.C32_remove_duplicates_predictions: propext, Classical.choice, Quot.sound
Witt.C32_irep_no_duplicates: propext, Classical.choice, Quot.sound
Witt.C32_remove_duplicates_keeps_first: propext, Classical.choice, Quot.sound
Witt.C32_remove_duplicates_plain: propext, Classical.choice, Quot.sound
Witt.C32_refuted_number_vs_text: propext, Quot.sound
Witt.C32_ripper_no_duplicates: propext, Classical.choice, Quot.sound
Witt.C33_irep_keeps_initial_model: propext, Classical.choice, Quot.sound
Witt.C34_ripper_fit_returns: propext, Classical.choice, Quot.sound
Witt.C34_ripper_terminates: propext, Classical.choice, Quot.sound
Witt.C34_ripper_rule_count: propext, Classical.choice, Quot.sound
Witt.C35_irep_fit_on_valid_data: propext, Classical.choice, Quot.sound
Witt.C35_ripper_fit_on_valid_data: propext, Classical.choice, Quot.sound
Witt.C35_prune_sizes: propext, Classical.choice, Quot.sound
Witt.C35_irep_never_raises: propext, Classical.choice, Quot.sound
Witt.C35_ripper_never_raises: propext, Classical.choice, Quot.sound
Witt.C35_ripper_prune_none: propext, Classical.choice, Quot.sound
Witt.C35_refuted_prune_zero: propext, Classical.choice, Quot.sound
Witt.C35_refuted_initial_model: propext, Classical.choice, Quot.sound
Witt.C36_fit_reproducible: propext, Classical.choice, Quot.sound
Witt.C36_irep_reproducible: propext, Classical.choice, Quot.sound
Witt.C36_irep_plain_reproducible: propext, Classical.choice, Quot.sound
Witt.C36_ripper_plain_reproducible: propext, Classical.choice, Quot.sound
Witt.C36_ripper_reproducible: propext, Classical.choice, Quot.sound
Witt.C37_splits: propext, Quot.sound
Witt.C37_cut: propext, Classical.choice, Quot.sound
Witt.C37_frame_split: propext, Classical.choice, Quot.sound
Witt.C38_reasons: propext, Classical.choice, Quot.sound
Witt.C38_recalibrated_probabilities: propext, Classical.choice, Quot.sound
Witt.C38_irep_probabilities: propext, Classical.choice, Quot.sound
Witt.C38_ripper_probabilities: propext, Classical.choice, Quot.sound
Witt.C38_refuted_duplicate_labels: propext, Classical.choice, Quot.sound
Witt.C38_irep_refuted_trimmed: propext, Classical.choice, Quot.sound
Witt.C38_fit_probabilities: propext, Classical.choice, Quot.sound
Witt.C38_recalibrate_probabilities: propext, Classical.choice, Quot.sound
Witt.C39_predictions_unchanged: propext, Classical.choice, Quot.sound
Witt.C39_counts_add_up: propext, Classical.choice, Quot.sound
Witt.C39_refuted_alpha_zero: propext, Classical.choice, Quot.sound
Witt.C39_history_keeps_predictions: propext, Classical.choice, Quot.sound
Witt.C40_refuted_min_samples_ignored: propext, Classical.choice, Quot.sound
Witt.C40_parameters_ignored: propext, Classical.choice, Quot.sound
Witt.C40_api_parameters_ignored: propext, Classical.choice, Quot.sound
Witt.C41_proba_iff_predict: propext, Classical.choice, Quot.sound
Witt.C41_refuted_init_ruleset: propext, Classical.choice, Quot.sound
Witt.C41_refuted_add_rule: propext, Classical.choice, Quot.sound
Witt.C41_fitted_models: propext, Classical.choice, Quot.sound
Witt.C42_scores: propext, Classical.choice, Quot.sound
Witt.C42_scores_in_unit_interval: propext, Classical.choice, Quot.sound
Witt.C43_nCr: propext, Classical.choice, Quot.sound
Witt.C43_nCr_nonpos: propext, Classical.choice, Quot.sound
Witt.C44_argmin: propext, Classical.choice, Quot.sound
Witt.C45_num_covered_counts_firings: propext, Quot.sound
Witt.C45_num_covered: propext, Quot.sound
Witt.C45_num_covered_disjoint: propext, Classical.choice, Quot.sound
Witt.C45_refuted_overlap: propext
Witt.C46_simplification: propext, Classical.choice, Quot.sound
Witt.C46_sublist: propext, Classical.choice, Quot.sound
Witt.C46_ripper_simplifies: propext, Quot.sound
Witt.C47_choice: propext, Classical.choice, Quot.sound
Witt.C47_pass: propext, Classical.choice, Quot.sound
Witt.C47_pass_uses_choice: propext, Classical.choice, Quot.sound
Witt.C48_bins_partition: propext, Classical.choice, Quot.sound
Witt.C48_bins_partition_full: propext, Classical.choice, Quot.sound
Witt.C48_transform: propext, Classical.choice, Quot.sound
Witt.C48_transform_monotone: propext, Classical.choice, Quot.sound
Witt.C48_refuted_empty_bin_dropped: propext, Classical.choice, Quot.sound
Witt.C49_upper_bound_inclusive_pandas: propext, Classical.choice, Quot.sound
Witt.C49_numpy_placement: propext, Classical.choice, Quot.sound
Witt.C49_refuted_numpy_upper_bound: propext, Classical.choice, Quot.sound
Witt.C49_numpy_missing_is_highest: propext, Classical.choice, Quot.sound
Witt.C50_label_denotes_interval: propext, Classical.choice, Quot.sound
Witt.C50_refuted_two_dashes: propext, Classical.choice, Quot.sound
Witt.C51_touches_only_fitted: propext, Classical.choice, Quot.sound
Witt.C51_second_transform: propext, Classical.choice, Quot.sound
Witt.C51_refuted_missing: propext, Classical.choice, Quot.sound
Witt.C51_refuted_no_thresholds: propext, Classical.choice, Quot.sound
Witt.C52_constructor: propext, Classical.choice, Quot.sound
Witt.C52_set_then_get: propext, Classical.choice, Quot.sound
Witt.C52_clone: propext, Classical.choice, Quot.sound
Witt.C52_restore: propext, Classical.choice, Quot.sound
Witt.C52_fit_keywords: propext, Classical.choice, Quot.sound
Witt.C52_clone_settings: propext, Classical.choice, Quot.sound
Witt.C52_refuted_min_rule_samples: propext, Classical.choice, Quot.sound
Witt.C53_class_inference: propext, Classical.choice, Quot.sound
Witt.C53_pos_neg_partition: propext, Quot.sound
Witt.C54_init_model_predict: propext, Classical.choice, Quot.sound
Witt.C54_refuted_ranges_never_match: propext, Classical.choice, Quot.sound
Witt.C55_trim_conds: propext, Quot.sound
Witt.C56_selected_features: propext, Quot.sound
Witt.C56_get_conds: propext, Quot.sound
Witt.C56_get_conds_repeats: propext
Witt.C57_rule_stats: propext, Classical.choice, Quot.sound
Witt.C58_rm_rule_covers_cn: propext, Classical.choice, Quot.sound
Witt.C58_rm_covered: propext, Classical.choice, Quot.sound
Witt.C59_bridge_gain: propext, Classical.choice, Quot.sound
Witt.C59_bridge_compare: propext, Classical.choice, Quot.sound
Witt.C59_gain_positive_iff: propext, Classical.choice, Quot.sound
Witt.C59_positive_gain_loses_negative: propext, Classical.choice, Quot.sound
Witt.C59_no_change_no_gain: propext, Classical.choice, Quot.sound
Witt.C60_growth_within_allowance: propext, Classical.choice, Quot.sound
Witt.C61_growth_stops_for_a_reason: propext, Classical.choice, Quot.sound
Witt.C62_ripper_rejected_data: propext, Classical.choice, Quot.sound
Witt.C62_refuted_irep_wipes_model: propext, Classical.choice, Quot.sound
Witt.C62_refuted_ripper_bad_initial_model: propext, Classical.choice, Quot.sound
Witt.C62_ripper_plain_rejected_data: propext, Classical.choice, Quot.sound
Witt.C62_refuted_ripper_plain_bad_initial_model: propext, Classical.choice, Quot.sound
Witt.C62_refuted_irep_rejected_data: propext, Classical.choice, Quot.sound
Witt.C63_queries_are_read_only: propext, Classical.choice, Quot.sound
Witt.C63_answers_are_repeatable: propext, Classical.choice, Quot.sound
Witt.C63_refuted_classes: propext, Classical.choice, Quot.sound
Witt.C63_refuted_first_query_raises: propext, Classical.choice, Quot.sound
Witt.C64_conditions_on_raw_data: propext, Classical.choice, Quot.sound
Witt.C65_list_labels: propext, Quot.sound
Witt.C65_series_by_position: propext, Quot.sound
Witt.C65_refuted_series_wrong_length: propext, Quot.sound
Witt.C66_names_rename: propext, Quot.sound
Witt.C66_refuted_names_with_class: propext, Quot.sound
Witt.C66_names_by_position: propext, Classical.choice, Quot.sound
Witt.C66_fit_names_rename: propext, Classical.choice, Quot.sound
Witt.C67_which_columns: propext, Classical.choice, Quot.sound
Witt.C67_other_columns_untouched: propext, Classical.choice, Quot.sound
Witt.C68_score_is_of_predict: propext, Classical.choice, Quot.sound
Witt.C68_accuracy: propext, Classical.choice, Quot.sound
Witt.C69_irep_fit_reproduces_training_data: propext, Classical.choice, Quot.sound
Witt.C69_growth_separates: propext, Classical.choice, Quot.sound
Witt.C69_irep_no_false_positives: propext, Classical.choice, Quot.sound
Witt.C69_irep_reproduces_training_data: propext, Classical.choice, Quot.sound
Witt.C69_refuted_missing_value: propext, Classical.choice, Quot.sound
Witt.C70_irep_conditions_shared: propext, Classical.choice, Quot.sound
Witt.C70_ripper_conditions_shared: propext, Classical.choice, Quot.sound
Witt.C70_irep_nothing_shared: propext, Classical.choice, Quot.sound
Witt.C70_irep_predicts_all_true: propext, Classical.choice, Quot.sound
Witt.C70_ripper_nothing_shared: propext, Classical.choice, Quot.sound
Witt.C70_fit_conditions_shared: propext, Classical.choice, Quot.sound
Witt.C71_irep_same_model: propext, Classical.choice, Quot.sound
Witt.C71_irep_same_growth: propext, Classical.choice, Quot.sound
Witt.C71_refuted_switch: propext, Classical.choice, Quot.sound
Witt.C71_irep_fit_same_object: propext, Classical.choice, Quot.sound
Witt.C72_irep_plain_terminates: propext, Classical.choice, Quot.sound
Witt.C72_irep_plain_rule_count: propext, Classical.choice, Quot.sound
Witt.C72_ripper_plain_terminates: propext, Classical.choice, Quot.sound
Witt.C72_irep_plain_fit_returns: propext, Classical.choice, Quot.sound
Witt.C72_ripper_plain_fit_returns: propext, Classical.choice, Quot.sound
Witt.C73_irep_plain_limits: propext, Classical.choice, Quot.sound
Witt.C73_ripper_plain_limits: propext, Classical.choice, Quot.sound
Witt.C73_irep_plain_covers_positives: propext, Classical.choice, Quot.sound
Witt.C73_irep_plain_fit_covers_positives: propext, Classical.choice, Quot.sound
Witt.C74_irep_plain_never_raises: propext, Classical.choice, Quot.sound
Witt.C74_rule_of_all_conditions: propext, Quot.sound
Witt.C74_refuted_ripper_plain: propext, Classical.choice, Quot.sound
Witt.C74_irep_plain_fit_on_valid_data: propext, Classical.choice, Quot.sound
Witt.C75_refuted_same_seed_same_model: propext, Classical.choice, Quot.sound
Witt.C75_same_order_same_model: propext, Classical.choice, Quot.sound
Witt.C75_irep_order_of_shared_values: propext, Classical.choice, Quot.sound
Witt.C76_fit_refuses: propext, Classical.choice, Quot.sound
Witt.C76_irep_fit_raises_iff: propext, Classical.choice, Quot.sound
Witt.C76_recalibrate_refuses: propext, Classical.choice, Quot.sound
Witt.C76_refuted_recalibrate_series: propext, Classical.choice, Quot.sound
Witt.C76_irep_raises_iff: propext, Classical.choice, Quot.sound
Witt.C76_ripper_raises_iff: propext, Classical.choice, Quot.sound
Witt.C76_recalibrate_raises_iff: propext, Classical.choice, Quot.sound
Witt.C77_model_predictions: propext, Classical.choice, Quot.sound
Witt.C77_interpret_is_fit: propext, Classical.choice, Quot.sound
Witt.C77_single_answer: propext, Classical.choice, Quot.sound
Witt.C77_irep_interprets: propext, Classical.choice, Quot.sound
Witt.C77_ripper_interprets: propext, Classical.choice, Quot.sound
Witt.C77_interpreter_history: propext, Classical.choice, Quot.sound
Witt.C77_fidelity_needs: propext, Classical.choice, Quot.sound
Witt.C77_fidelity_of_model: propext, Classical.choice, Quot.sound
Witt.C77_fidelity_is_agreement: propext, Classical.choice, Quot.sound
Witt.C77_fidelity_of_each: propext, Classical.choice, Quot.sound
Witt.C77_faithful_surrogate: propext, Classical.choice, Quot.sound
Witt.C77_refuted_one_answer: propext, Classical.choice, Quot.sound
Witt.C77_rulesets_as_models: propext, Classical.choice, Quot.sound
Witt.C78_apart: propext, Classical.choice, Quot.sound
Witt.C78_copy: propext, Classical.choice, Quot.sound
Witt.C78_init_ruleset: propext, Classical.choice, Quot.sound
Witt.C78_copy_ruleset: propext, Classical.choice, Quot.sound
Witt.C78_fit: propext, Classical.choice, Quot.sound
Witt.C78_fit_leaves_model: propext, Classical.choice, Quot.sound
Witt.C78_one_owner: propext, Classical.choice, Quot.sound
Witt.C78_edit_as_value: propext, Classical.choice, Quot.sound
Witt.C78_edit_ruleset_as_value: propext, Classical.choice, Quot.sound
Witt.C78_recalibrate_as_value: propext, Classical.choice, Quot.sound
Witt.C78_query_as_value: propext, Classical.choice, Quot.sound
Witt.C78_init_as_value: propext, Classical.choice, Quot.sound
Witt.C78_fit_as_value: propext, Classical.choice, Quot.sound
Witt.C78_fit_self_unfitted: propext, Classical.choice, Quot.sound
Witt.C78_refuted_failed_fit: propext, Classical.choice, Quot.sound
Witt.C79_conditions_permanent: propext, Classical.choice, Quot.sound
Witt.C79_shared_rules: propext, Classical.choice, Quot.sound
Witt.C79_refuted_probabilities: propext, Classical.choice, Quot.sound
Witt.C80_plain_simplification: propext, Classical.choice, Quot.sound
Witt.C80_plain_choice: propext, Classical.choice, Quot.sound
Witt.C80_plain_pass: propext, Classical.choice, Quot.sound
Witt.C80_plain_pass_uses_choice: propext, Classical.choice, Quot.sound
Witt.C80_plain_fit_simplifies: propext, Classical.choice, Quot.sound
Witt.C80_times_covered: propext, Classical.choice, Quot.sound
Witt.C81_rounded_lawful: propext, Classical.choice, Quot.sound
Witt.C81_prune_sizes: propext, Classical.choice, Quot.sound
Witt.C81_rounded_sharp: propext, Classical.choice, Quot.sound
Witt.C81_doubles_sharp: propext, Classical.choice, Quot.sound
Witt.C81_irep_fit_on_valid_data: propext, Classical.choice, Quot.sound
Witt.C81_ripper_fit_on_valid_data: propext, Classical.choice, Quot.sound
Witt.C81_irep_fit_reproduces_training_data: propext, Classical.choice, Quot.sound
Witt.C81_prune_size_rounded_away: propext, Classical.choice, Quot.sound
Witt.C81_refuted_tiny_prune_size: propext, Classical.choice, Quot.sound
Witt.C82_passes: propext, Classical.choice, Quot.sound
Witt.C82_plain_passes: propext, Classical.choice, Quot.sound
Witt.C82_seeded_passes: propext, Classical.choice, Quot.sound
Witt.C82_plain_seeded_passes: propext, Classical.choice, Quot.sound
Witt.C82_enough_passes: propext, Classical.choice, Quot.sound
Witt.C82_plain_enough_passes: propext, Classical.choice, Quot.sound
Witt.C83_one_line_per_rule: propext, Classical.choice, Quot.sound
Witt.C83_line_of_conditions: propext, Quot.sound
Witt.C83_reads_back_iff: propext, Classical.choice, Quot.sound
Witt.C83_copy_by_text: propext, Classical.choice, Quot.sound
Witt.C83_out_model: propext, Classical.choice, Quot.sound
Witt.C83_truncstr: propext, Quot.sound
Witt.C83_refuted_no_rules_from_the_right: propext, Quot.sound
Witt.C84_fit_fails_iff: propext, Classical.choice, Quot.sound
Witt.C84_which_columns: propext, Classical.choice, Quot.sound
Witt.C84_transform: propext, Classical.choice, Quot.sound
Witt.C84_fit_transform: propext, Classical.choice, Quot.sound
Witt.C84_refuted_one_number: propext, Classical.choice, Quot.sound
Witt.C84_refuted_small_scale: propext, Classical.choice, Quot.sound
Witt.C84_refuted_empty_range: propext, Classical.choice, Quot.sound
Witt.C85_conditions_pull_weight: propext, Classical.choice, Quot.sound
Witt.C85_no_idle_conditions: propext, Classical.choice, Quot.sound
Witt.C85_fit_no_idle_conditions: propext, Classical.choice, Quot.sound
Witt.C85_refuted_redundancy: propext, Classical.choice, Quot.sound
Witt.C86_unpruned_deterministic: propext, Classical.choice, Quot.sound
Witt.C86_fit_unpruned: propext, Classical.choice, Quot.sound
Witt.C86_refuted_pruned: propext, Classical.choice, Quot.sound
Witt.C87_labels_irrelevant: propext, Classical.choice, Quot.sound
Witt.C87_unpruned_labels_irrelevant: propext, Classical.choice, Quot.sound
Witt.C87_same_possible_outcomes: propext, Classical.choice, Quot.sound
Witt.C87_answers_label_free: propext, Classical.choice, Quot.sound
Witt.C87_recalibrate_label_free: propext, Classical.choice, Quot.sound
Witt.C87_series_labels_win: propext, Classical.choice, Quot.sound
Witt.C87_refuted_repeated_labels: propext
Witt.C88_rule_stats_examples: propext, Classical.choice, Quot.sound
Witt.C88_examples_seeded: propext, Classical.choice, Quot.sound
Witt.C88_refuted_repeated_labels: propext, Classical.choice, Quot.sound
Witt.C89_warnings_change_nothing: propext, Classical.choice, Quot.sound
Witt.C89_fit_warnings: propext, Classical.choice, Quot.sound
Witt.C89_predict_warnings: propext, Classical.choice, Quot.sound
Witt.C89_universal_means_always_true: propext, Classical.choice, Quot.sound
Witt.C89_refuted_trimmed_silently: propext, Classical.choice, Quot.sound
Witt.C90_queries_only_read: propext, Classical.choice, Quot.sound
Witt.C90_recalibrate_only_reads: propext, Classical.choice, Quot.sound
Witt.C90_fit_only_reads: propext, Classical.choice, Quot.sound
Witt.C90_history_only_reads: propext, Classical.choice, Quot.sound
Witt.C91_irep_separates_and_conquers: propext, Classical.choice, Quot.sound
Witt.C91_ripper_separates_and_conquers: propext, Classical.choice, Quot.sound
Witt.C91_optimisation_examples: propext, Classical.choice, Quot.sound
Witt.C91_plain_irep_separates_and_conquers: propext, Classical.choice, Quot.sound
Witt.C91_plain_ripper_separates_and_conquers: propext, Classical.choice, Quot.sound
Witt.C91_plain_optimisation_examples: propext, Classical.choice, Quot.sound
Witt.C92_class_column_anywhere: propext, Classical.choice, Quot.sound
Witt.C92_labels_separately: propext, Classical.choice, Quot.sound
Witt.C92_default_class_name: propext, Classical.choice, Quot.sound
Witt.C92_recalibrate: propext, Classical.choice, Quot.sound
Witt.C92_class_column_ignored: propext, Classical.choice, Quot.sound
Witt.C93_allowance_order: propext, Classical.choice, Quot.sound
Witt.C93_allowance_order_rounded: propext, Classical.choice, Quot.sound
Witt.C93_allowance: propext, Quot.sound
Witt.C93_irep_fit: propext, Classical.choice, Quot.sound
Witt.C93_fewer_positives: propext, Classical.choice, Quot.sound
Witt.C93_learning: propext, Classical.choice, Quot.sound
Witt.C93_plain_learning: propext, Classical.choice, Quot.sound
Witt.C93_max_rules: propext, Classical.choice, Quot.sound
Witt.C93_plain_max_rules: propext, Classical.choice, Quot.sound
Witt.C93_refuted_ripper: propext, Classical.choice, Quot.sound
Witt.C94_fit_starts_afresh: propext, Classical.choice, Quot.sound
Witt.C94_refit: propext, Classical.choice, Quot.sound
Witt.C94_initial_model: propext, Classical.choice, Quot.sound
Witt.C95_fit_recoded: propext, Classical.choice, Quot.sound
Witt.C95_columns_renamed: propext, Classical.choice, Quot.sound
Witt.C95_answers_recoded: propext, Classical.choice, Quot.sound
Witt.C95_fit_then_predict: propext, Classical.choice, Quot.sound
Witt.C95_refuted_colliding_names: propext, Classical.choice, Quot.sound
Witt.C96_recalibrated: propext, Classical.choice, Quot.sound
Witt.C96_fitted: propext, Classical.choice, Quot.sound
Witt.C96_exact: propext, Classical.choice, Quot.sound
Witt.C97_irep_verbosity: propext, Classical.choice, Quot.sound
Witt.C97_ripper_verbosity: propext, Classical.choice, Quot.sound
Witt.C97_levels: propext, Classical.choice, Quot.sound
Witt.C97_irep_last_ruleset: propext, Classical.choice, Quot.sound
Witt.C97_ripper_last_ruleset: propext, Classical.choice, Quot.sound
Witt.C97_refuted_no_column: propext, Classical.choice, Quot.sound
Witt.C97_refuted_ripper_prune_zero: propext, Classical.choice, Quot.sound
Witt.C97_irep_plain_verbosity: propext, Classical.choice, Quot.sound
Witt.C97_ripper_plain_verbosity: propext, Classical.choice, Quot.sound
Witt.C97_plain_levels: propext, Classical.choice, Quot.sound
Witt.C97_irep_plain_last_ruleset: propext, Classical.choice, Quot.sound
Witt.C97_ripper_plain_last_ruleset: propext, Classical.choice, Quot.sound
Witt.C97_refuted_ripper_plain_prune_zero: propext, Classical.choice, Quot.sound
Witt.C98_irep_superfluous_column: propext, Classical.choice, Quot.sound
Witt.C98_irep_unused: propext, Classical.choice, Quot.sound
Witt.C98_irep_same_answers: propext, Classical.choice, Quot.sound
Witt.C98_refuted_ripper: propext, Classical.choice, Quot.sound
Witt.C98_refuted_copy_first: propext, Classical.choice, Quot.sound
Witt.C98_fit_superfluous_column: propext, Classical.choice, Quot.sound
Witt.C98_fit_then_predict: propext, Classical.choice, Quot.sound
Witt.C98_irep_plain_superfluous_column: propext, Classical.choice, Quot.sound
Witt.C98_irep_plain_unused: propext, Classical.choice, Quot.sound
Witt.C98_irep_plain_same_answers: propext, Classical.choice, Quot.sound
Witt.C99_new_rules: propext, Classical.choice, Quot.sound
Witt.C99_train_again: propext, Classical.choice, Quot.sound
Witt.C99_fit_again: propext, Classical.choice, Quot.sound
Witt.C99_refuted_max_rules: propext, Classical.choice, Quot.sound
Witt.C99_refuted_unseeded: propext, Classical.choice, Quot.sound
Witt.C99_refuted_ripper: propext, Classical.choice, Quot.sound
