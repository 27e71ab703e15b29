{"id": "C01", "title": "A prediction is the DNF of the rules", "statement": "Ruleset.predict(X) answers True for a row exactly when some row of X carrying the same index label meets every condition (feature == value) of some rule; with distinct index labels, exactly when the row itself does. It raises KeyError exactly when no rule is empty and X lacks a tested column.", "quantifier": "every ruleset, every frame X, any index labels, every row", "why_tests_cant": "rulesets, frames and cell values are unbounded; a test fixes a handful", "anchors": [{"file": "wittgenstein/base.py", "symbols": ["Ruleset.predict", "Ruleset.covers", "Rule.covers", "Cond.covers"]}]}
{"id": "C02", "title": "A prediction depends on the rows with its label only", "statement": "The prediction made for a row depends on nothing but the cells of the rows of the batch carrying the same index label; with distinct labels, on its own cells only. (With repeated labels a row inherits its namesakes' predictions.)", "quantifier": "every ruleset, every two batches with the tested columns, every index labelling", "why_tests_cant": "quantifies over all contexts a row can be put in", "anchors": [{"file": "wittgenstein/base.py", "symbols": ["Ruleset.predict"]}]}
{"id": "C03", "title": "One prediction per row, in row order", "statement": "predict returns exactly one boolean per row of X, and reordering the rows of X reorders the predictions in the same way, whatever the index labels.", "quantifier": "every ruleset, every frame, every permutation of its rows", "why_tests_cant": "all permutations of unbounded frames", "anchors": [{"file": "wittgenstein/base.py", "symbols": ["Ruleset.predict"]}]}
{"id": "C04", "title": "give_reasons lists exactly the covering rules", "statement": "With give_reasons=True the predictions are those of predict, and the reasons of a row are the rules that fire on exactly one of the rows carrying its index label, in ruleset order; with distinct labels these are exactly the rules that cover the row, and the list is empty iff the prediction is False.", "quantifier": "every ruleset, every frame with the tested columns, every row", "why_tests_cant": "unbounded inputs; completeness ('exactly') cannot be sampled", "anchors": [{"file": "wittgenstein/base.py", "symbols": ["Ruleset.predict"]}]}
{"id": "C05", "title": "Universal and null rulesets", "statement": "A ruleset containing an empty rule predicts True for every row of any frame, even one lacking the other rules' features; a ruleset with no rules predicts False for every row.", "quantifier": "every frame and every ruleset that contains an empty rule or has no rule", "why_tests_cant": "all frames", "anchors": [{"file": "wittgenstein/base.py", "symbols": ["Ruleset.isuniversal", "Ruleset.isnull", "Ruleset.covers", "Ruleset.predict"]}]}
{"id": "C06", "title": "Editing is monotone in the predictions", "statement": "add_rule and insert_rule never turn a True prediction into False; remove_rule never turns False into True; adding a condition to a rule never enlarges, and removing one never shrinks, what the rule covers.", "quantifier": "every ruleset, every rule, every position, every frame with distinct labels, every row", "why_tests_cant": "relational property over all pairs of models", "anchors": [{"file": "wittgenstein/base.py", "symbols": ["Ruleset.add", "Ruleset.insert", "Ruleset.remove", "Rule.covers"]}]}
{"id": "C07", "title": "Rule order, condition order and repetition do not affect predictions", "statement": "Permuting or repeating the rules of a ruleset, or the conditions inside a rule, leaves every prediction unchanged.", "quantifier": "every two rulesets with the same set of rules / rules with the same set of conditions, every frame", "why_tests_cant": "all permutations of unbounded rulesets", "anchors": [{"file": "wittgenstein/base.py", "symbols": ["Ruleset.covers", "Rule.covers", "Ruleset.predict"]}]}
{"id": "C08", "title": "Equal rulesets predict alike unless different conditions print alike", "statement": "Two rulesets compare equal with == iff they have the same rules up to order and to how they print; equal rulesets make the same predictions on every frame, provided that among their conditions printing alike implies testing the same column for the same value (as for text names without '=' and text values). Without the proviso it is false: the number 1 and the text '1', or a name containing '=', print alike.", "quantifier": "every two rulesets, every frame", "why_tests_cant": "all pairs of rulesets and all frames", "anchors": [{"file": "wittgenstein/base.py", "symbols": ["Ruleset.__eq__", "Rule.__eq__", "Cond.__str__"]}]}
{"id": "C09", "title": "Equal rules hash equal", "statement": "Rules compare equal iff they have equally many conditions and the same set of printed conditions; they have the same hash key iff they have the same printed conditions up to order. So equal keys imply equality, and equal rules hash alike if one of them repeats no condition. (False for rules with repeated conditions: [a,a,b] == [a,b,b].)", "quantifier": "every two rules", "why_tests_cant": "all pairs of rules", "anchors": [{"file": "wittgenstein/base.py", "symbols": ["Rule.__eq__", "Rule.__hash__"]}, {"file": "wittgenstein/utils.py", "symbols": ["remove_duplicates"]}]}
{"id": "C10", "title": "Rule and ruleset equality are equivalence relations", "statement": "== on Rules and on Rulesets is reflexive, symmetric and transitive; on Conds it is symmetric and transitive, and reflexive unless the value is NaN.", "quantifier": "every two or three objects", "why_tests_cant": "all triples of objects", "anchors": [{"file": "wittgenstein/base.py", "symbols": ["Ruleset.__eq__", "Rule.__eq__", "Cond.__eq__"]}]}
{"id": "C11", "title": "Missing features are reported, never mispredicted", "statement": "On non-empty data, predict of a model whose stored features include those its rules test (every fitted or initialised model) raises IndexError iff a stored feature is missing from X, else ValueError iff a binned column already holds text other than its labels, else answers once per row; it always answers on valid data it was fitted on. Edits do not update the stored features: after add_rule, data lacking only the new rule's feature gives KeyError, and after remove_rule predict may ask for features no rule tests.", "quantifier": "every model fitted by IREP or RIPPER with any cn_optimize, or initialised; every X; every edit", "why_tests_cant": "all histories of edits followed by all frames", "anchors": [{"file": "wittgenstein/abstract_ruleset_classifier.py", "symbols": ["AbstractRulesetClassifier.predict", "AbstractRulesetClassifier.init_ruleset", "AbstractRulesetClassifier.add_rule"]}, {"file": "wittgenstein/check.py", "symbols": ["_check_model_features_present"]}, {"file": "wittgenstein/preprocess.py", "symbols": ["preprocess_prediction_data"]}]}
{"id": "C12", "title": "Unused columns do not influence predictions", "statement": "Adding, removing, reordering or altering columns no rule tests (the class column included) does not change any prediction.", "quantifier": "every ruleset, every two frames agreeing on labels and tested columns", "why_tests_cant": "all pairs of frames", "anchors": [{"file": "wittgenstein/base.py", "symbols": ["Ruleset.predict", "Cond.covers"]}, {"file": "wittgenstein/preprocess.py", "symbols": ["_convert_to_prediction_df"]}]}
{"id": "C13", "title": "The editing API is a list", "statement": "Any sequence of add / insert / replace / remove calls, by index or by rule, successful or failing, leaves the ruleset in the state a plain list of rules would be in; by-rule calls act on the first rule that compares equal.", "quantifier": "every initial ruleset and every finite history of edit calls", "why_tests_cant": "all finite histories", "anchors": [{"file": "wittgenstein/base.py", "symbols": ["Ruleset.add", "Ruleset.remove", "Ruleset.remove_rule", "Ruleset.insert", "Ruleset.insert_rule", "Ruleset.replace", "Ruleset.replace_rule"]}, {"file": "wittgenstein/check.py", "symbols": ["_check_valid_index", "_check_rule_exists"]}]}
{"id": "C14", "title": "Failed edits are atomic", "statement": "An edit call that raises (bad index, unknown rule, unparsable rule text) leaves the ruleset unchanged, and it raises exactly when the index is outside 0..len-1, the named rule is absent, or the text does not parse.", "quantifier": "every ruleset, every edit call", "why_tests_cant": "all failing inputs", "anchors": [{"file": "wittgenstein/base.py", "symbols": ["Ruleset.remove", "Ruleset.insert", "Ruleset.replace", "Ruleset.remove_rule", "Ruleset.insert_rule", "Ruleset.replace_rule"]}, {"file": "wittgenstein/check.py", "symbols": ["_check_valid_index", "_check_rule_exists"]}]}
{"id": "C15", "title": "Which models printing and parsing gives back", "statement": "ruleset_fromstr(str(rs)) reproduces rs, rule by rule and condition by condition, iff rs has no empty rule and all names and values are text free of white space, unprintable characters, quotes, commas, brackets, backslashes, '^', '=' and 'V'.", "quantifier": "every ruleset", "why_tests_cant": "all strings; the failing characters are found only by proof", "anchors": [{"file": "wittgenstein/base.py", "symbols": ["ruleset_fromstr", "rule_fromstr", "cond_fromstr", "Ruleset.__str__", "Rule.__str__", "Cond.__str__"]}]}
{"id": "C16", "title": "The parser is total and exact", "statement": "For every text, ruleset_fromstr either raises ValueError or returns one rule per 'V'-separated piece and one condition per '^'-separated piece; it raises iff some piece has not exactly one '=' (and is not a literal for the empty rule).", "quantifier": "every string", "why_tests_cant": "all strings", "anchors": [{"file": "wittgenstein/base.py", "symbols": ["ruleset_fromstr", "rule_fromstr", "cond_fromstr"]}, {"file": "wittgenstein/utils.py", "symbols": ["drop_chars"]}]}
{"id": "C17", "title": "Indexed coverage equals DataFrame coverage for rules", "statement": "On a frame with distinct labels, CatNap.rule_covers(rule, subset) is the set of labels in subset whose row satisfies every condition of the rule, for every rule over the non-class columns (including values never seen); cond_covers(cond, subset) likewise for one condition, and for none on the class column or a missing one.", "quantifier": "every frame with distinct labels, every rule, every subset of labels (or none)", "why_tests_cant": "refinement over all data", "anchors": [{"file": "wittgenstein/catnap.py", "symbols": ["CatNap.__init__", "CatNap.rule_covers", "CatNap.cond_covers"]}, {"file": "wittgenstein/base.py", "symbols": ["Rule.covers"]}]}
{"id": "C18", "title": "Indexed coverage equals DataFrame coverage for rulesets", "statement": "CatNap.ruleset_covers(ruleset, subset) is the set of labels in subset whose row is covered by some rule, except that a ruleset with an empty rule together with an empty subset gives all labels.", "quantifier": "every frame with distinct labels, every ruleset over its non-class columns, every subset of its labels", "why_tests_cant": "all data; the corner is subset = {} and a universal ruleset", "anchors": [{"file": "wittgenstein/catnap.py", "symbols": ["CatNap.ruleset_covers"]}]}
{"id": "C19", "title": "Optimised and plain rule growth agree", "statement": "With the same candidate conditions and the same examples, grow_rule_cn and grow_rule return the same rule.", "quantifier": "every frame with distinct labels, positive/negative example sets, candidate list, initial rule and limits", "why_tests_cant": "equivalence of two loops over all data", "anchors": [{"file": "wittgenstein/base_functions.py", "symbols": ["grow_rule", "grow_rule_cn", "best_successor", "best_rule_successor_cn", "gain", "gain_cn"]}]}
{"id": "C20", "title": "Rule growth terminates and only refines", "statement": "grow_rule_cn halts on every input after at most one step per covered negative; its result is the initial rule followed by candidate conditions, each added one strictly shrinking the covered negatives (apart from a final pop under min_rule_samples).", "quantifier": "every dataset, initial rule and limits", "why_tests_cant": "termination and a loop invariant over all inputs", "anchors": [{"file": "wittgenstein/base_functions.py", "symbols": ["grow_rule_cn", "best_rule_successor_cn", "gain_cn"]}]}
{"id": "C21", "title": "Grown rules never repeat a feature and keep covering a positive", "statement": "A rule grown from the empty rule tests each feature at most once and covers at least one of the positives it was grown on.", "quantifier": "every dataset with at least one positive, all limits", "why_tests_cant": "needs the sign analysis of the gain formula for all counts", "anchors": [{"file": "wittgenstein/base_functions.py", "symbols": ["grow_rule_cn", "best_rule_successor_cn", "gain_cn"]}]}
{"id": "C22", "title": "max_rule_conds bounds the rules IREP learns and RIPPER grows", "statement": "Every rule of a model fitted by IREP, or by RIPPER without optimisation passes (k <= 0), is one of the initial model's or has at most max_rule_conds conditions. (RIPPER's optimisation passes ignore the limit: a witness is given.)", "quantifier": "every dataset, random choice, limit >= 0 and initial model", "why_tests_cant": "all datasets and random choices", "anchors": [{"file": "wittgenstein/base_functions.py", "symbols": ["grow_rule_cn"]}, {"file": "wittgenstein/irep.py", "symbols": ["IREP._grow_ruleset_cn"]}, {"file": "wittgenstein/ripper.py", "symbols": ["RIPPER.fit", "RIPPER._optimize_ruleset_cn"]}]}
{"id": "C23", "title": "What min_rule_samples guarantees", "statement": "A rule grown from the empty rule under min_rule_samples = m has no condition, or covers no growing negative, or covers at least m growing examples. (A rule that covers no negative is accepted however few examples it covers.)", "quantifier": "every dataset with distinct labels and limit m", "why_tests_cant": "all datasets", "anchors": [{"file": "wittgenstein/base_functions.py", "symbols": ["grow_rule_cn"]}]}
{"id": "C24", "title": "Pruning keeps the best non-empty prefix", "statement": "prune_rule returns a non-empty prefix of the rule's conditions whose metric is maximal among all non-empty prefixes (when any is >= 0), the shortest such prefix on ties, and the unpruned rule if all are negative.", "quantifier": "every non-empty rule, every metric function, every prune set", "why_tests_cant": "optimality over all prefixes and metrics", "anchors": [{"file": "wittgenstein/base_functions.py", "symbols": ["prune_rule", "prune_rule_cn"]}]}
{"id": "C25", "title": "Pruning only generalises", "statement": "Every example covered by a rule is covered by its pruned version, and the empty rule is never produced from a non-empty one.", "quantifier": "every rule, metric and dataset", "why_tests_cant": "all datasets", "anchors": [{"file": "wittgenstein/base_functions.py", "symbols": ["prune_rule", "prune_rule_cn"]}]}
{"id": "C26", "title": "IREP training terminates", "statement": "IREP's ruleset growth halts for every dataset, every random choice and every setting of the limits: each added rule removes at least one remaining positive.", "quantifier": "every dataset, shuffle outcome and hyperparameter setting", "why_tests_cant": "termination over all inputs and random schedules", "anchors": [{"file": "wittgenstein/irep.py", "symbols": ["IREP._grow_ruleset_cn", "IREP._grow_ruleset"]}]}
{"id": "C27", "title": "IREP without pruning covers every training positive", "statement": "IREP with prune_size None or 0 and without max_rules, max_total_conds, min_ruleset_samples and an initial model, fitted on valid data with distinct row labels in which nothing prints like something else: predict on that data answers True for every positive training row, numbers discretised or not. (False for a column mixing the number 1 and the text '1'.)", "quantifier": "every training data, dtype and shuffle", "why_tests_cant": "all datasets", "anchors": [{"file": "wittgenstein/irep.py", "symbols": ["IREP.fit", "IREP._grow_ruleset_cn"]}]}
{"id": "C28", "title": "IREP only keeps rules that are right at least half the time", "statement": "With pruning on, every rule IREP adds covers at least as many positives as negatives of the prune set it was judged on, and at least one positive.", "quantifier": "every dataset, every shuffle", "why_tests_cant": "all datasets and random splits", "anchors": [{"file": "wittgenstein/irep.py", "symbols": ["IREP._grow_ruleset_cn"]}, {"file": "wittgenstein/base_functions.py", "symbols": ["rule_precision_cn"]}]}
{"id": "C29", "title": "No label leakage", "statement": "Every condition of a fitted model (other than those of a supplied initial model) tests a non-class column of the training data for a value that occurs in it.", "quantifier": "every dataset, seed and hyperparameter setting, IREP and RIPPER", "why_tests_cant": "all datasets", "anchors": [{"file": "wittgenstein/irep.py", "symbols": ["IREP.fit"]}, {"file": "wittgenstein/ripper.py", "symbols": ["RIPPER.fit"]}, {"file": "wittgenstein/catnap.py", "symbols": ["CatNap.possible_conds"]}]}
{"id": "C30", "title": "max_rules is respected", "statement": "A fitted model has at most max(max_rules, size of the initial model) rules.", "quantifier": "every dataset, seed, max_rules >= 0, IREP and RIPPER", "why_tests_cant": "all datasets and seeds", "anchors": [{"file": "wittgenstein/base_functions.py", "symbols": ["stop_early"]}, {"file": "wittgenstein/irep.py", "symbols": ["IREP.fit"]}, {"file": "wittgenstein/ripper.py", "symbols": ["RIPPER.fit"]}]}
{"id": "C31", "title": "max_total_conds is respected", "statement": "A fitted model has at most max_total_conds conditions in total, for IREP and RIPPER, even with an oversized initial model.", "quantifier": "every dataset, seed, max_total_conds >= 0", "why_tests_cant": "all datasets and seeds", "anchors": [{"file": "wittgenstein/base.py", "symbols": ["Ruleset.trim_conds"]}, {"file": "wittgenstein/irep.py", "symbols": ["IREP.fit"]}, {"file": "wittgenstein/ripper.py", "symbols": ["RIPPER.fit"]}]}
{"id": "C32", "title": "No duplicate rules after fit", "statement": "No two rules of a fitted model print the same conditions up to order; de-duplication keeps, in order, exactly the rules without an earlier rule printing the same conditions, and changes no prediction provided that conditions printing alike test the same column for the same value.", "quantifier": "every list of rules; every fit of IREP and RIPPER", "why_tests_cant": "all rule lists", "anchors": [{"file": "wittgenstein/utils.py", "symbols": ["remove_duplicates"]}, {"file": "wittgenstein/irep.py", "symbols": ["IREP.fit"]}, {"file": "wittgenstein/ripper.py", "symbols": ["RIPPER.fit"]}]}
{"id": "C33", "title": "IREP keeps the initial model", "statement": "Fitting IREP from a duplicate-free initial model that fits the limits yields a model that starts with exactly the initial rules, in order.", "quantifier": "every initial model, dataset and seed", "why_tests_cant": "all datasets and models", "anchors": [{"file": "wittgenstein/irep.py", "symbols": ["IREP.fit", "IREP._grow_ruleset_cn"]}, {"file": "wittgenstein/abstract_ruleset_classifier.py", "symbols": ["AbstractRulesetClassifier._ruleset_frommodel"]}]}
{"id": "C34", "title": "RIPPER training terminates", "statement": "RIPPER's growth, optimisation and covering stages halt for every dataset, random choice, k, dl_allowance and limits.", "quantifier": "every dataset, shuffle outcome and hyperparameter setting", "why_tests_cant": "termination over all inputs and random schedules", "anchors": [{"file": "wittgenstein/ripper.py", "symbols": ["RIPPER.fit", "RIPPER._grow_ruleset_cn", "RIPPER._optimize_ruleset_cn", "RIPPER._cover_remaining_positives_cn"]}]}
{"id": "C35", "title": "Which exceptions training can raise", "statement": "On valid data (any values, dtypes, shuffles, limits), with alpha > 0 and cn_optimize=True: IREP.fit raises nothing for prune_size None, 0 or any value that leaves something to prune on (without rounding, 0 < prune_size <= 1; with doubles, see C81), with any initial model over the data's columns; RIPPER.fit raises nothing for a prune_size that leaves something to prune on, on distinct row labels without an initial model (or with one whose rules test distinct non-constant columns). RIPPER with prune_size None raises TypeError as soon as it tries to grow a rule; prune_size 0 can raise AttributeError and an initial rule on a constant column ZeroDivisionError.", "quantifier": "every labelled frame, seed and hyperparameter setting in range", "why_tests_cant": "absence of crashes over all inputs", "anchors": [{"file": "wittgenstein/ripper.py", "symbols": ["_r_theory_bits", "_exceptions_bits_cn", "_rs_total_bits_cn"]}, {"file": "wittgenstein/base_functions.py", "symbols": ["prune_rule_cn", "nCr", "additive_smoothed_rates"]}, {"file": "wittgenstein/irep.py", "symbols": ["_IREP_prune_metric_cn"]}]}
{"id": "C36", "title": "random_state makes training reproducible", "statement": "With random_state set, the fitted object depends only on the data, the initial model, the hyperparameters and the seed: not on the state of the global random generator, nor on anything the object learned or was told before. (With cn_optimize=False: and on the order in which sets of values are enumerated, C75.)", "quantifier": "every dataset, every prior history of generator and object, IREP and RIPPER, any cn_optimize", "why_tests_cant": "all prior histories", "anchors": [{"file": "wittgenstein/base_functions.py", "symbols": ["random_split", "set_shuffled_split"]}, {"file": "wittgenstein/irep.py", "symbols": ["IREP.fit"]}, {"file": "wittgenstein/ripper.py", "symbols": ["RIPPER.fit"]}]}
{"id": "C37", "title": "Grow/prune splits are partitions of the right size", "statement": "random_split and set_shuffled_split return two parts that together hold every element exactly once; the first part has floor(n*split_size) elements for 0<=split_size<=1, and the prune part is non-empty whenever n>0 and split_size<1.", "quantifier": "every collection, split size and shuffle", "why_tests_cant": "all sizes and permutations", "anchors": [{"file": "wittgenstein/base_functions.py", "symbols": ["random_split", "set_shuffled_split", "df_shuffled_split"]}]}
{"id": "C38", "title": "predict_proba returns probability distributions", "statement": "After a fit with alpha>0 (or recalibrate_proba on data with distinct labels), every row of predict_proba has a negative and a positive entry strictly between 0 and 1 summing to 1; rows predicted positive get the mean, over exactly their covering rules, of the smoothed class frequencies of the training (calibration) rows each rule covers; rows predicted negative all get one and the same pair, which is the smoothed class frequency of the rows predicted negative after recalibration, after RIPPER.fit, and after IREP.fit without max_total_conds on data in which nothing prints like something else. (IREP calibrates before trimming, so with max_total_conds the pair is stale.) Covering is meant on the raw data: a condition on a binned column counts the rows whose number lies in its range; with recalibrate_proba(discretize=False), those whose value equals its label. give_reasons=True adds the reasons predict gives.", "quantifier": "every dataset used to calibrate, every ruleset, every X with distinct labels, alpha>0", "why_tests_cant": "all datasets; exact arithmetic identity", "anchors": [{"file": "wittgenstein/base.py", "symbols": ["Ruleset.predict_proba"]}, {"file": "wittgenstein/utils.py", "symbols": ["weighted_avg_freqs"]}, {"file": "wittgenstein/base_functions.py", "symbols": ["additive_smoothed_rates", "recalibrate_proba"]}]}
{"id": "C39", "title": "Recalibration never changes predictions and its counts add up", "statement": "recalibrate_proba changes no rule and no prediction, whether it returns or raises: after any history of queries and recalibrations, predict of a fitted classifier answers or raises as right after fit. Each rule's class counts sum to the number of calibration rows it covers, and the uncovered counts to the number of calibration rows predicted negative.", "quantifier": "every fitted classifier, every finite history of queries and recalibrations; every ruleset, labelled calibration frame with distinct labels and alpha", "why_tests_cant": "all datasets", "anchors": [{"file": "wittgenstein/base_functions.py", "symbols": ["recalibrate_proba"]}]}
{"id": "C40", "title": "min_samples and require_min_samples have no effect on recalibration", "statement": "min_samples and require_min_samples have no effect on recalibrate_proba: its result is the same for all their values, so it replaces the probabilities even if every rule lacks min_samples samples, against its documentation.", "quantifier": "every model, calibration set, min_samples and require_min_samples", "why_tests_cant": "all inputs", "anchors": [{"file": "wittgenstein/base_functions.py", "symbols": ["recalibrate_proba"]}, {"file": "wittgenstein/abstract_ruleset_classifier.py", "symbols": ["AbstractRulesetClassifier.recalibrate_proba"]}]}
{"id": "C41", "title": "When predict_proba works", "statement": "After every successful fit, predict_proba answers exactly when predict does, on any data, and raises the same otherwise; so for every model calibrated after its last edit. (After init_ruleset it raises AttributeError on all data on which predict answers, and after add_rule on data the new rule covers.)", "quantifier": "every model fitted by IREP or RIPPER with any cn_optimize, every data and names; every init_ruleset model", "why_tests_cant": "all histories", "anchors": [{"file": "wittgenstein/base.py", "symbols": ["Ruleset.predict_proba"]}, {"file": "wittgenstein/abstract_ruleset_classifier.py", "symbols": ["AbstractRulesetClassifier.predict_proba", "AbstractRulesetClassifier.add_rule", "AbstractRulesetClassifier.init_ruleset"]}]}
{"id": "C42", "title": "Scores are what their names say", "statement": "score_accuracy, score_precision, score_recall and score_f1 equal (tp+tn)/n, tp/(tp+fp), tp/(tp+fn) and 2tp/(2tp+fp+fn), lie in [0,1], are None exactly when undefined (f1 also when tp=0), and raise ValueError exactly on a length mismatch.", "quantifier": "every pair of boolean lists", "why_tests_cant": "all lists", "anchors": [{"file": "wittgenstein/base_functions.py", "symbols": ["score_accuracy", "score_precision", "score_recall", "score_f1", "_f1"]}]}
{"id": "C43", "title": "nCr is the binomial coefficient", "statement": "nCr(n, r) equals n choose r for all naturals n, r (0 when r>n), and is 1 for r <= 0 whatever n.", "quantifier": "every n and r", "why_tests_cant": "all integers", "anchors": [{"file": "wittgenstein/base_functions.py", "symbols": ["nCr"]}]}
{"id": "C44", "title": "argmin returns the first minimum", "statement": "argmin(xs) is the least index whose value is minimal.", "quantifier": "every non-empty list", "why_tests_cant": "all lists", "anchors": [{"file": "wittgenstein/base_functions.py", "symbols": ["argmin"]}]}
{"id": "C45", "title": "What num_covered counts", "statement": "Ruleset.num_covered(X) counts each row once per rule that covers it (or every row once if some rule is empty), so without empty rules it is the number of covered rows iff no row is covered by two rules.", "quantifier": "every ruleset and frame with the tested columns", "why_tests_cant": "all overlaps", "anchors": [{"file": "wittgenstein/base.py", "symbols": ["Ruleset.covers", "Ruleset.num_covered"]}]}
{"id": "C46", "title": "Stage-4 simplification only removes rules", "statement": "The description-length simplification returns a sub-list of the rules in order, always keeps the first rule, and drops a later rule exactly when adding it to the preceding prefix strictly increases the description length.", "quantifier": "every ruleset and dataset", "why_tests_cant": "all rulesets", "anchors": [{"file": "wittgenstein/ripper.py", "symbols": ["_rs_total_bits_cn", "_rs_total_bits"]}]}
{"id": "C47", "title": "Optimisation keeps the rule count", "statement": "An optimisation pass returns as many rules as it was given; each rule is the original one, its replacement or its revision, whichever has the least description length (the earliest on ties), unless that one is already present.", "quantifier": "every ruleset, dataset and shuffle", "why_tests_cant": "all datasets", "anchors": [{"file": "wittgenstein/ripper.py", "symbols": ["RIPPER._optimize_ruleset_cn"]}, {"file": "wittgenstein/base_functions.py", "symbols": ["argmin"]}]}
{"id": "C48", "title": "Bins partition the number line", "statement": "The bins fitted for a column follow each other without overlapping, are at least two, the outer ones reaching to infinity, and every number lies in exactly one of them unless it falls into an interior bin that had no training row, which is dropped, in which case it lies in none. transform replaces a number by the label of the range it lies in (missing if none), keeps missing cells missing, and never gives a larger number an earlier label.", "quantifier": "every training column, bin count and number", "why_tests_cant": "all real thresholds and values", "anchors": [{"file": "wittgenstein/discretize.py", "symbols": ["BinTransformer.fit", "BinTransformer._thresholds_to_intervals", "BinTransformer.transform"]}]}
{"id": "C49", "title": "Upper bounds of bins: included by the pandas engine, excluded by the numpy engine", "statement": "With the pandas engine (the classifiers') a number equal to a bin's upper bound is placed in that bin. With the numpy engine it is placed in the next bin, whose range excludes it, for every threshold list; below and above all thresholds numbers get the first and last bin, and missing values the last bin.", "quantifier": "every fitted column and every increasing threshold list", "why_tests_cant": "all boundary values", "anchors": [{"file": "wittgenstein/discretize.py", "symbols": ["BinTransformer.transform", "BinTransformer._numpy_cut", "BinTransformer._pandas_cut"]}]}
{"id": "C50", "title": "Bin labels denote their interval", "statement": "Parsing the text label of a bin gives back the interval it was printed from, open ends and negative or exponent-notation bounds included. (Labels without spaces around the dash, as written by older versions, with a negative upper bound raise UnboundLocalError.)", "quantifier": "every interval with float ends", "why_tests_cant": "all numbers", "anchors": [{"file": "wittgenstein/discretize.py", "symbols": ["BinTransformer._interval_to_str", "BinTransformer._str_to_floor_ceil", "BinTransformer.find_floor_ceil"]}]}
{"id": "C51", "title": "When discretisation is idempotent", "statement": "transform keeps columns and row labels and changes no cell of a column it was not fitted on or that is already text; transforming its result again changes nothing, unless a fitted column then holds a missing value, in which case, and only then, it is a ValueError.", "quantifier": "every frame and binner", "why_tests_cant": "all frames", "anchors": [{"file": "wittgenstein/discretize.py", "symbols": ["BinTransformer.transform", "BinTransformer._find_transformed"]}]}
{"id": "C52", "title": "Hyperparameters: constructor, set_params, get_params, clone", "statement": "The constructor accepts exactly the documented names; after any history of set_params calls each hyperparameter has the value last written; get_params returns all of them except min_rule_samples; writing them back changes nothing; rebuilding from get_params (cloning) always succeeds and keeps every hyperparameter except that min_rule_samples becomes None and a false prune_size 0, so the clone is the same iff min_rule_samples was None and prune_size not None or empty; fit keywords set hyperparameters for good except min_rule_samples, which is ignored.", "quantifier": "every hyperparameter assignment, every finite sequence of set_params", "why_tests_cant": "all assignments", "anchors": [{"file": "wittgenstein/abstract_ruleset_classifier.py", "symbols": ["AbstractRulesetClassifier.get_params", "AbstractRulesetClassifier.set_params"]}, {"file": "wittgenstein/ripper.py", "symbols": ["RIPPER.get_params"]}]}
{"id": "C53", "title": "Positive/negative split and class inference", "statement": "Each training row goes to exactly one of positives and negatives. Without a named positive class: if all labels are 0/False or 1/True it is 1; if all labels are alike and not 0 it is that label; exactly two classes, one text and one not, are a TypeError; anything else is a NameError.", "quantifier": "every label column", "why_tests_cant": "all label columns", "anchors": [{"file": "wittgenstein/base_functions.py", "symbols": ["pos_neg_split", "pos", "neg"]}, {"file": "wittgenstein/preprocess.py", "symbols": ["_get_pos_class"]}]}
{"id": "C54", "title": "When init_ruleset models are usable on raw data", "statement": "A model given by init_ruleset to a new classifier answers its first predict, on non-empty data with its features, iff every condition value is text that is 'x - y' with a readable number x or has at most one dash beyond its first character; otherwise it raises AttributeError, UnboundLocalError or ValueError. Its numeric-range conditions never match raw numbers: if every rule has a text condition on a column of numbers, the answer is False on every row.", "quantifier": "every ruleset, every X", "why_tests_cant": "all condition values", "anchors": [{"file": "wittgenstein/abstract_ruleset_classifier.py", "symbols": ["AbstractRulesetClassifier._ensure_has_bin_transformer", "AbstractRulesetClassifier.init_ruleset"]}, {"file": "wittgenstein/discretize.py", "symbols": ["BinTransformer.construct_from_ruleset", "BinTransformer.find_floor_ceil"]}]}
{"id": "C55", "title": "trim_conds keeps the longest fitting prefix", "statement": "trim_conds(m) keeps the longest prefix of rules whose total condition count is at most m.", "quantifier": "every ruleset and m", "why_tests_cant": "all rulesets", "anchors": [{"file": "wittgenstein/base.py", "symbols": ["Ruleset.trim_conds", "Ruleset.count_conds"]}]}
{"id": "C56", "title": "Selected features are exactly the tested features", "statement": "get_selected_features lists each feature tested by some rule exactly once, in order of first appearance; get_conds lists every condition of the model.", "quantifier": "every ruleset", "why_tests_cant": "all rulesets", "anchors": [{"file": "wittgenstein/base.py", "symbols": ["Ruleset.get_selected_features", "Ruleset.get_conds"]}]}
{"id": "C57", "title": "rule_stats counts are correct", "statement": "On non-empty data with distinct row labels and the stored features, rule_stats gives one line per rule, in order: its number, its text, how many rows of the discretised data it fires on, that number as a fraction of all rows and, given y, its precision, recall and F1 as a classifier of its own; y of another length is a ValueError.", "quantifier": "every model, X and y", "why_tests_cant": "all datasets", "anchors": [{"file": "wittgenstein/abstract_ruleset_classifier.py", "symbols": ["AbstractRulesetClassifier.rule_stats"]}]}
{"id": "C58", "title": "Removing covered examples is exact", "statement": "rm_covered / rm_rule_covers_cn keep exactly the examples the object does not cover, so training stages never lose or duplicate an example.", "quantifier": "every object, every example sets with distinct labels", "why_tests_cant": "all datasets", "anchors": [{"file": "wittgenstein/base_functions.py", "symbols": ["rm_covered", "rm_rule_covers_cn"]}]}
{"id": "C59", "title": "Information gain is positive only for real improvements", "statement": "The FOIL gain of a refinement is positive iff it keeps at least one positive and strictly increases the smoothed precision (p+1)/(p+n+1); then it strictly reduces covered negatives. Re-adding a condition has gain 0.", "quantifier": "all counts p1<=p0, n1<=n0", "why_tests_cant": "all naturals", "anchors": [{"file": "wittgenstein/base_functions.py", "symbols": ["gain", "gain_cn"]}]}
{"id": "C60", "title": "RIPPER grows only within the description-length allowance", "statement": "RIPPER's growing phase adds rule after rule only while the description length of rules and exceptions is at most dl_allowance bits above the least one seen so far in the phase.", "quantifier": "every dataset with distinct labels, random choice, dl_allowance and limits", "why_tests_cant": "all runs of the growing phase", "anchors": [{"file": "wittgenstein/ripper.py", "symbols": ["RIPPER._grow_ruleset_cn", "_r_theory_bits", "_exceptions_bits_cn"]}]}
{"id": "C61", "title": "RIPPER's growing phase stops only for a reason", "statement": "The growing phase ends only when all its positives are covered, the description length exceeded the least one seen by more than dl_allowance, a limit (max_rules, max_total_conds, min_ruleset_samples) is reached, the growing part of the remaining positives is empty, or the grown rule is empty; the examples it leaves are exactly those no added rule covers.", "quantifier": "every dataset with distinct labels, random choice and hyperparameters", "why_tests_cant": "all runs of the growing phase", "anchors": [{"file": "wittgenstein/ripper.py", "symbols": ["RIPPER._grow_ruleset_cn"]}, {"file": "wittgenstein/base_functions.py", "symbols": ["stop_early", "rm_rule_covers_cn"]}]}
{"id": "C62", "title": "What a failed fit leaves behind", "statement": "When the data is rejected (empty, wrong names, missing or misplaced labels, positive class not recognisable), RIPPER.fit leaves the object exactly as it was; IREP.fit has already replaced the learned rules by the initial model (the empty ruleset if none), keeping class, bins and stored features. An unreadable initial model: IREP.fit leaves the object as it was, RIPPER.fit leaves the old rules with the new data's class, positive class and bins.", "quantifier": "every object state, every rejected input, every initial model", "why_tests_cant": "all states and failing inputs", "anchors": [{"file": "wittgenstein/irep.py", "symbols": ["IREP.fit"]}, {"file": "wittgenstein/ripper.py", "symbols": ["RIPPER.fit"]}, {"file": "wittgenstein/preprocess.py", "symbols": ["preprocess_training_data"]}]}
{"id": "C63", "title": "Queries are read-only and repeatable", "statement": "Any series of predict and predict_proba (with or without reasons), score and rule_stats calls, answered or raising, leaves rules, bins, class names, features and hyperparameters of a fitted classifier as they were, and every query then answers or raises as it would have before. (predict_proba does overwrite the attribute classes_, which fit leaves as [0, 1], by the class names.) On a classifier without a bin transformer the calls can at most create an empty one: answers stay, but a query that raised may answer when repeated.", "quantifier": "every classifier state and every finite series of queries on any data", "why_tests_cant": "all histories", "anchors": [{"file": "wittgenstein/abstract_ruleset_classifier.py", "symbols": ["AbstractRulesetClassifier.predict", "AbstractRulesetClassifier.predict_proba", "AbstractRulesetClassifier.score", "AbstractRulesetClassifier.rule_stats", "AbstractRulesetClassifier._ensure_has_bin_transformer"]}]}
{"id": "C64", "title": "A fitted model's answers read off the raw data", "statement": "Whenever predict of a fitted classifier answers on data with distinct row labels, row i is predicted positive exactly if some rule has all its conditions met by the raw row, where a condition on a binned numeric column means that the raw number lies in the range its label denotes.", "quantifier": "every successful fit of IREP or RIPPER, any cn_optimize, on any data, every later X with distinct labels", "why_tests_cant": "all data, bins and rules", "anchors": [{"file": "wittgenstein/abstract_ruleset_classifier.py", "symbols": ["AbstractRulesetClassifier.predict"]}, {"file": "wittgenstein/discretize.py", "symbols": ["BinTransformer.transform"]}, {"file": "wittgenstein/preprocess.py", "symbols": ["preprocess_prediction_data"]}]}
{"id": "C65", "title": "Labels are matched to rows by position", "statement": "A list or array y must have one label per row (else ValueError) and is matched by position. A Series of the right length is matched by position whatever the indexes, the data taking over the Series' row labels. A Series of another length without repeated labels is not rejected: it is matched by row label, and rows without a label get a missing class.", "quantifier": "every X, every y", "why_tests_cant": "all indexes and lengths", "anchors": [{"file": "wittgenstein/preprocess.py", "symbols": ["_convert_to_training_df", "_check_valid_input_data"]}]}
{"id": "C66", "title": "feature_names renames", "statement": "predict(X, feature_names=ns) answers as predict on X with its columns renamed to ns, if neither X nor ns contains the class column. Names are given by position: a wrong number is a ValueError, else the i-th name gets the cells and dtype of the i-th column. fit with names is fit on the renamed data. If ns (one name per column) contains the class column and X does not, predict raises ValueError.", "quantifier": "every classifier, X and list of names, every fit", "why_tests_cant": "all frames and names", "anchors": [{"file": "wittgenstein/preprocess.py", "symbols": ["preprocess_prediction_data", "_convert_to_prediction_df"]}]}
{"id": "C67", "title": "Which columns are discretised", "statement": "fit makes bins for a column iff it is numeric, is not the class, has more than n_discretize_bins different values and its values fall into at least two bins; each binned column gets at least two bins and at most n_discretize_bins; every other column reaches training with the caller's values.", "quantifier": "every training frame and n_discretize_bins", "why_tests_cant": "all frames", "anchors": [{"file": "wittgenstein/discretize.py", "symbols": ["BinTransformer.fit", "BinTransformer.find_continuous_feats"]}, {"file": "wittgenstein/preprocess.py", "symbols": ["preprocess_training_data"]}]}
{"id": "C68", "title": "score evaluates predict", "statement": "score(X, y, fn) raises whatever predict(X) raises and otherwise is fn(actuals, predictions) with the predictions of predict(X), the i-th actual being True iff the i-th label equals the positive class; the default score is the fraction of rows whose prediction agrees with their label, and ValueError on a length mismatch.", "quantifier": "every classifier, X, y and scoring function", "why_tests_cant": "all inputs", "anchors": [{"file": "wittgenstein/abstract_ruleset_classifier.py", "symbols": ["AbstractRulesetClassifier.score"]}, {"file": "wittgenstein/ripper.py", "symbols": ["RIPPER.score"]}, {"file": "wittgenstein/base_functions.py", "symbols": ["score_accuracy"]}]}
{"id": "C69", "title": "Growth separates the classes; unpruned IREP reproduces consistent data", "statement": "A rule grown without max_rule_conds and min_rule_samples, on positives without missing values, covers a growing negative only if that row agrees on every column but the class with every growing positive it covers. So IREP with prune_size None or 0, without limits and initial model, on data in which no positive row agrees with a negative one on every other column and nothing prints like something else, predicts True on exactly the positive training rows, if the computed gain of a refinement with larger precision is positive (exact arithmetic; doubles up to eight million rows, C81). (A positive row with a missing value can force the empty rule.)", "quantifier": "every dataset with distinct labels, every shuffle", "why_tests_cant": "optimality of a greedy search over all data; needs an averaging argument on the gain", "anchors": [{"file": "wittgenstein/base_functions.py", "symbols": ["grow_rule_cn", "best_rule_successor_cn", "gain_cn"]}, {"file": "wittgenstein/irep.py", "symbols": ["IREP.fit", "IREP._grow_ruleset_cn"]}]}
{"id": "C70", "title": "cn_optimize=False tests only values found in both classes", "statement": "With cn_optimize=False, every condition of a model learned from data holds of at least one positive and one negative training row (or was listed as possible by the initial model). So if the values of every column tell the classes apart, IREP learns at most the empty rule, which predicts True on everything, and RIPPER learns no rule, although the default learns to separate the classes.", "quantifier": "every dataset, shuffle, limit, set iteration order and initial model", "why_tests_cant": "all data and all runs of a randomised algorithm", "anchors": [{"file": "wittgenstein/base.py", "symbols": ["Ruleset._update_possible_conds"]}, {"file": "wittgenstein/irep.py", "symbols": ["IREP._grow_ruleset"]}, {"file": "wittgenstein/ripper.py", "symbols": ["RIPPER._grow_ruleset"]}]}
{"id": "C71", "title": "When cn_optimize makes no difference", "statement": "On distinct row labels IREP grows, with cn_optimize=False, exactly the rules the coverage index would lead to if it considered only the conditions whose value occurs in both classes, on the same shuffles and with the same exceptions; so if every value of every column occurs in both classes (enumerated in order of appearance) the fitted model is the same. In general the switch changes the model: witnesses for IREP and RIPPER.", "quantifier": "every dataset with distinct labels, every shuffle, hyperparameter setting and initial model", "why_tests_cant": "two implementations must agree on all inputs: a refinement", "anchors": [{"file": "wittgenstein/irep.py", "symbols": ["IREP._grow_ruleset", "IREP._grow_ruleset_cn"]}, {"file": "wittgenstein/base_functions.py", "symbols": ["grow_rule", "grow_rule_cn", "best_successor", "rm_covered"]}]}
{"id": "C72", "title": "Training with cn_optimize=False terminates", "statement": "fit with cn_optimize=False halts on every input (repeated labels and missing values included), for IREP and RIPPER; IREP learns at most one rule per positive training row.", "quantifier": "every dataset, generator, set iteration order, hyperparameters and initial model", "why_tests_cant": "termination over all executions", "anchors": [{"file": "wittgenstein/irep.py", "symbols": ["IREP._grow_ruleset"]}, {"file": "wittgenstein/ripper.py", "symbols": ["RIPPER._grow_ruleset", "RIPPER._optimize_ruleset", "RIPPER._cover_remaining_positives"]}]}
{"id": "C73", "title": "Limits and coverage with cn_optimize=False", "statement": "Models fitted with cn_optimize=False have at most max_rules rules (or as many as the initial model), at most max_total_conds conditions and no two rules printing alike; IREP's learned rules have at most max_rule_conds conditions. IREP without pruning and limits predicts True for every positive training row, on distinct labels and data in which nothing prints like something else.", "quantifier": "every dataset, shuffle and limits", "why_tests_cant": "invariants of all runs", "anchors": [{"file": "wittgenstein/irep.py", "symbols": ["IREP._grow_ruleset"]}, {"file": "wittgenstein/ripper.py", "symbols": ["RIPPER.fit", "RIPPER._grow_ruleset"]}]}
{"id": "C74", "title": "Exceptions with cn_optimize=False", "statement": "IREP.fit with cn_optimize=False raises nothing on non-empty data for alpha > 0 and a prune_size that is None, 0 or leaves something to prune on (without rounding, any value up to 1). RIPPER.fit with cn_optimize=False can fail on valid data with distinct labels on which the default succeeds: ZeroDivisionError for a rule that uses every possible condition (always), ValueError and UnboundLocalError because rows covered by several rules are counted several times.", "quantifier": "every dataset, label list, shuffle and limits", "why_tests_cant": "all runs; the failures depend on data, shuffle and overlap of rules", "anchors": [{"file": "wittgenstein/irep.py", "symbols": ["IREP._grow_ruleset"]}, {"file": "wittgenstein/ripper.py", "symbols": ["RIPPER.fit", "_exceptions_bits", "_r_theory_bits"]}, {"file": "wittgenstein/base_functions.py", "symbols": ["_accuracy"]}]}
{"id": "C75", "title": "Reproducibility with cn_optimize=False", "statement": "With random_state set, two fits with cn_optimize=False on the same data with the same settings give the same model within one process, and whenever sets of values are enumerated alike. (Across processes they need not: the order of a set of text values depends on the hash seed of the process and decides ties between conditions.)", "quantifier": "every dataset, seed, hyperparameter setting and enumeration order of sets", "why_tests_cant": "depends on the hash seed of the process, not on anything a test sets", "anchors": [{"file": "wittgenstein/base.py", "symbols": ["Ruleset._update_possible_conds"]}, {"file": "wittgenstein/base_functions.py", "symbols": ["best_successor"]}, {"file": "wittgenstein/irep.py", "symbols": ["IREP.fit"]}, {"file": "wittgenstein/ripper.py", "symbols": ["RIPPER.fit"]}]}
{"id": "C76", "title": "fit refuses ill-formed training data exactly", "statement": "fit refuses data without rows, without labels (ValueError), with class_feat not among the columns (IndexError), with a Series y named otherwise than class_feat (NameError), with too few or many feature_names or list labels, or with a Series of another length and repeated labels (ValueError); the checks are made in this order, by both classes. After them, if the positive class is not named, it refuses labels of exactly two classes, one text and one not (TypeError), and labels that are neither all 0/1 nor all alike (NameError). In the documented parameter range and without an initial model, IREP.fit, and RIPPER.fit on distinct row labels, raise in exactly these cases; else they return, having named the class column class_feat, or like the Series, or 'Class', and set the positive class to the one named, or 1, or the common label. recalibrate_proba (alpha > 0) on a fitted classifier refuses the same, further text in a binned column that is not one of its labels (ValueError) and a missing tested column (IndexError), and nothing else; it then changes nothing. So after a fit with a list of labels it refuses every Series of labels not named 'Class'.", "quantifier": "every dataset, object state, seed and hyperparameter setting in range", "why_tests_cant": "all ill-formed inputs", "anchors": [{"file": "wittgenstein/preprocess.py", "symbols": ["_check_valid_input_data", "_convert_to_training_df", "_get_class_feat_name", "preprocess_training_data", "_preprocess_recalibrate_proba_data"]}, {"file": "wittgenstein/irep.py", "symbols": ["IREP.fit"]}, {"file": "wittgenstein/ripper.py", "symbols": ["RIPPER.fit"]}]}
{"id": "C77", "title": "Rulesets as surrogates of other models", "statement": "interpret_model(X, model, interpreter) fits the interpreter to the model's predictions on X: it leaves the interpreter as interpreter.fit(X, predictions) does, raises what that raises, and returns the fitted ruleset; if the model raises, so does interpret_model, with the interpreter untouched. The predictions are those of model_predict_function if given, of predict for sklearn and unknown models, of calling the model for torch, and 'predict > 0.5' for keras and tensorflow. Every 0/1-valued model is interpreted without an exception (parameters in range; for RIPPER, distinct row labels; default cn_optimize). With a seed the result does not depend on what the (shared default) interpreter learned before. score_fidelity is by default the fraction of rows where interpreter and model agree, and with several score functions the list of their scores; an unpruned IREP surrogate of a model that gives alike (discretised) rows the same answer has fidelity 1 on X. (An array of one prediction is taken for a single label: interpret_model applies it to every row, and score_fidelity on one row of data raises TypeError.)", "quantifier": "every model (a function of X that may raise), dataset, interpreter state, seed, prediction function and score function", "why_tests_cant": "all foreign models, all interpreter histories and unbounded data", "anchors": [{"file": "wittgenstein/interpret.py", "symbols": ["interpret_model", "score_fidelity", "model_predict"]}, {"file": "wittgenstein/utils.py", "symbols": ["try_np_tonum"]}]}
{"id": "C78", "title": "Classifiers and rulesets do not share rules", "statement": "In any program, copy() gives an equal classifier, and copy(), init_ruleset(model) and a fit that returns leave the classifier with rules of its own, whatever Ruleset or classifier was passed as the model: no later calls on it (edits, recalibration, fits, queries, returning or raising, in any order) change any object there was before, and none on other objects change it. fit never changes its initial_model. In a program that puts no Rule object into two places, no two objects ever share rules, and every method does to a classifier what it does to it as a value and changes no other object. (An IREP fit that raises leaves the classifier bound to the Ruleset object passed as initial_model itself: editing the classifier then changes the caller's Ruleset.)", "quantifier": "every program: any number of classifier, Ruleset and Rule objects, any sequence of API calls on them, exceptions caught", "why_tests_cant": "aliasing shows only in particular histories of calls on several objects; there are infinitely many", "anchors": [{"file": "wittgenstein/abstract_ruleset_classifier.py", "symbols": ["AbstractRulesetClassifier.copy", "AbstractRulesetClassifier.init_ruleset", "AbstractRulesetClassifier._ruleset_frommodel", "AbstractRulesetClassifier.recalibrate_proba"]}, {"file": "wittgenstein/base.py", "symbols": ["asruleset", "asrule", "Ruleset.add", "Ruleset.replace", "Ruleset.insert", "Ruleset.remove"]}, {"file": "wittgenstein/irep.py", "symbols": ["IREP.fit"]}, {"file": "wittgenstein/ripper.py", "symbols": ["RIPPER.fit"]}, {"file": "wittgenstein/base_functions.py", "symbols": ["recalibrate_proba"]}]}
{"id": "C79", "title": "Shared Rule objects", "statement": "The conditions of a Rule object never change once it exists. So two classifiers or Rulesets may be given the same Rule objects: no calls on the one ever change the other's predict, score or rule_stats. (They may change its predict_proba: recalibrate_proba writes the class frequencies into the shared Rule objects.)", "quantifier": "every program, every history of calls, every dataset", "why_tests_cant": "all histories of calls on objects that share rules", "anchors": [{"file": "wittgenstein/base.py", "symbols": ["asrule", "Ruleset.add", "Rule"]}, {"file": "wittgenstein/base_functions.py", "symbols": ["recalibrate_proba"]}, {"file": "wittgenstein/abstract_ruleset_classifier.py", "symbols": ["AbstractRulesetClassifier.add_rule"]}]}
{"id": "C80", "title": "RIPPER's choices by description length with cn_optimize=False", "statement": "With cn_optimize=False too, the final simplification keeps the first rule and exactly those later rules whose addition to all rules before them does not increase the description length in bits. An optimisation pass returns as many rules as it was given; at each rule it reaches, it cuts a replacement (grown from nothing) and a revision (grown from the rule) to the prefix with which the whole ruleset is most accurate on the pruning rows, and takes whichever of rule, replacement and revision makes the simplified ruleset shortest on all training rows, the earliest on ties, unless an equal rule is already there. (In these counts a row counts once for each rule that covers it, so they are those of the indexed version only while no row is covered twice.)", "quantifier": "every training set, list of rules, split, generator state and hyperparameter setting for which the computation succeeds", "why_tests_cant": "all rulesets, all data, all splits; compares sums of logarithms", "anchors": [{"file": "wittgenstein/ripper.py", "symbols": ["RIPPER._optimize_ruleset", "_rs_total_bits", "_exceptions_bits", "_r_theory_bits", "RIPPER.fit"]}, {"file": "wittgenstein/base_functions.py", "symbols": ["prune_rule", "argmin", "_accuracy"]}]}
{"id": "C81", "title": "Training with rounded numbers", "statement": "The claims about training (termination, exceptions, which rows rules cover, limits, invariants of the model) do not depend on exact arithmetic: they hold for any computation of gains, metrics and description lengths that obeys a few laws, and every rounding that is monotone, has a relative error of at most u <= 1/4 and keeps small integers, with any monotone logarithm, obeys them. So with IEEE doubles fit raises nothing on valid data for prune_size None (IREP), 0 (IREP) or from 2^-52 to 1; and, if the logarithm errs by at most one unit in the last place, unpruned IREP reproduces consistent training data of up to eight million rows. (A prune_size so small that 1 - prune_size rounds to 1, like 1e-17, leaves nothing to prune on: IREP raises ZeroDivisionError or learns nothing.)", "quantifier": "every rounding and logarithm as described, every dataset, shuffle and hyperparameter setting in range", "why_tests_cant": "all floating-point formats and libraries; rounding errors show on few inputs", "anchors": [{"file": "wittgenstein/base_functions.py", "symbols": ["gain", "gain_cn", "precision", "rule_precision_cn", "random_split", "df_shuffled_split"]}, {"file": "wittgenstein/irep.py", "symbols": ["IREP.fit"]}, {"file": "wittgenstein/ripper.py", "symbols": ["RIPPER.fit"]}]}
{"id": "C82", "title": "Optimisation passes", "statement": "RIPPER's optimisation runs at most k passes, each on the rules returned by the one before, and stops early exactly after a pass that returned the very rules it was given, although rulesets are compared by what they print, in any order. With a random_state stopping early makes no difference: the outcome is that of all k passes, and once a pass changes nothing, fit has the same outcome for every larger k.", "quantifier": "every index, ruleset, training set, k, generator and hyperparameter setting, with either value of cn_optimize", "why_tests_cant": "all rulesets and all sequences of passes", "anchors": [{"file": "wittgenstein/ripper.py", "symbols": ["RIPPER.fit", "RIPPER._optimize_ruleset_cn", "RIPPER._optimize_ruleset"]}, {"file": "wittgenstein/base.py", "symbols": ["Ruleset.__eq__"]}]}
{"id": "C83", "title": "out_model prints the model", "statement": "out_model prints one line per rule, in order (one line [] for an empty model), whatever characters names and values contain; a line shows the rule as str(rule) does, with spaces around ^. The printed text, given to init_ruleset, makes a model with the same rules and conditions in the same order exactly if no rule is empty and names and values are text without white space, quotes ', commas, brackets, backslashes, ^, =, V or control characters. truncstr shows the first or last `limit` rules of a longer ruleset, for limit >= 1. (truncstr(0, 'right') shows all of them.)", "quantifier": "every ruleset, fitted model and classifier, every limit and direction", "why_tests_cant": "all names and values, in any script", "anchors": [{"file": "wittgenstein/base.py", "symbols": ["Ruleset.out_pretty", "Ruleset.truncstr", "Rule.__str__", "ruleset_fromstr"]}, {"file": "wittgenstein/abstract_ruleset_classifier.py", "symbols": ["AbstractRulesetClassifier.out_model", "AbstractRulesetClassifier.init_ruleset"]}]}
{"id": "C84", "title": "Discretising with the numpy engine", "statement": "BinTransformer(engine='numpy').fit raises only for n_discretize_bins=1, exactly when some numeric column holds one number besides missing values (AttributeError). Otherwise a column gets bins exactly if it is numeric, not ignored, has more than n_discretize_bins >= 2 different values and its least and greatest number differ after rounding to names_precision places; it then has exactly n_discretize_bins labels, which read as the ranges between thresholds: the rounded quantiles if all different, otherwise rounded evenly spaced points. transform succeeds on any table without foreign text in a fitted column: every number gets the label of the bin whose lower threshold is at most it and whose upper threshold is above it (the end bins are open-ended), in order; a missing value gets the last label. (So a column of small numbers may stay undiscretised, and some labels may be empty ranges like '1.0 - 1.0'.)", "quantifier": "every table, number of bins, precision and ignored columns; every table transformed; every numpy whose quantile, linspace and rounding are monotone with the right ends", "why_tests_cant": "all columns of numbers", "anchors": [{"file": "wittgenstein/discretize.py", "symbols": ["BinTransformer.fit", "BinTransformer._numpy_cut", "BinTransformer._thresholds_to_intervals", "BinTransformer.transform", "BinTransformer.fit_transform", "BinTransformer.find_continuous_feats"]}]}
{"id": "C85", "title": "Every learned condition pulls its weight", "statement": "In a model fitted without an initial model (row labels distinct if cn_optimize=True), every condition of every rule is met, together with the conditions printed before it, by some positive training row, and fails on some negative training row that meets all the conditions before it. So each rule with conditions fires on a training positive, and dropping its last condition makes it fire on more training negatives. With an initial model this holds of every condition beyond a beginning taken from an initial rule. On raw data: a condition on a binned column means that the number lies in its range. (An earlier condition may be made superfluous by later ones, and a rule by later rules: a witness is given.)", "quantifier": "every training table, shuffle, hyperparameter setting and limit; IREP and RIPPER, any cn_optimize; every rule and every condition in it", "why_tests_cant": "all data and shuffles", "anchors": [{"file": "wittgenstein/irep.py", "symbols": ["IREP.fit", "IREP._grow_ruleset", "IREP._grow_ruleset_cn"]}, {"file": "wittgenstein/ripper.py", "symbols": ["RIPPER.fit", "RIPPER._grow_ruleset_cn", "RIPPER._optimize_ruleset_cn", "RIPPER._cover_remaining_positives_cn"]}, {"file": "wittgenstein/base_functions.py", "symbols": ["grow_rule", "grow_rule_cn", "prune_rule", "best_successor", "best_rule_successor_cn"]}]}
{"id": "C86", "title": "IREP without pruning is deterministic", "statement": "IREP with prune_size None or 0 involves no chance: fit leaves the same model (or raises the same exception) for every generator, every state of it and every random_state; only the attribute random_state itself differs. (With pruning the model does depend on the shuffles: a witness is given.)", "quantifier": "every table, generator, generator state, seed, initial model and other hyperparameters, with either value of cn_optimize", "why_tests_cant": "all generators and states; a test tries a few seeds", "anchors": [{"file": "wittgenstein/irep.py", "symbols": ["IREP.fit", "IREP._grow_ruleset", "IREP._grow_ruleset_cn"]}, {"file": "wittgenstein/base_functions.py", "symbols": ["df_shuffled_split", "set_shuffled_split", "random_split"]}]}
{"id": "C87", "title": "Row labels carry no information", "statement": "As long as row labels are distinct, what they are does not matter: predict, predict_proba, score, their reasons, rule_stats and recalibrate_proba answer the same; fit with cn_optimize=False, or of IREP without pruning, leaves the same model or raises the same exception; with the index and pruning, where the labels decide the order in which Python enumerates sets, the possible outcomes are the same. A Series y with one value per row overrides the labels of X entirely. (With repeated labels all this fails: a witness is given.)", "quantifier": "every two labellings of the rows of every table, every method, hyperparameter setting, initial model and shuffle that does not look at the labels", "why_tests_cant": "all labellings", "anchors": [{"file": "wittgenstein/irep.py", "symbols": ["IREP.fit"]}, {"file": "wittgenstein/ripper.py", "symbols": ["RIPPER.fit"]}, {"file": "wittgenstein/abstract_ruleset_classifier.py", "symbols": ["AbstractRulesetClassifier.predict", "AbstractRulesetClassifier.recalibrate_proba", "AbstractRulesetClassifier.rule_stats"]}, {"file": "wittgenstein/preprocess.py", "symbols": ["preprocess_training_data", "_convert_to_training_df"]}, {"file": "wittgenstein/catnap.py", "symbols": ["CatNap"]}]}
{"id": "C88", "title": "rule_stats shows examples", "statement": "rule_stats(X, y, n_examples=n) answers with the table of rule_stats(X, y) and, for each rule in order, example rows of the (discretised) data on which it fires: all of them for n=-1, n different ones for n > 0 (all if there are fewer), each with its own row's label in the class column if y is given. Any other n is a ValueError, unless the model has no rules. With random_state the answer is reproducible. The object is unchanged. (With repeated row labels and y it raises: a witness is given.)", "quantifier": "every model, every X with distinct row labels and the stored features, every y, n, seed and sampler", "why_tests_cant": "all tables and samples", "anchors": [{"file": "wittgenstein/abstract_ruleset_classifier.py", "symbols": ["AbstractRulesetClassifier.rule_stats"]}]}
{"id": "C89", "title": "Warnings are true and complete", "statement": "fit warns 'No positive samples' exactly when no row of the labelled data has the positive class (given or inferred) and 'No negative samples' exactly when all have it. If the fitted model has a rule without conditions, 'Ruleset is universal' was warned of; if 'Ruleset is empty' was, the fitted model has no rules; unless max_total_conds is set, each is warned of exactly when it is so. predict warns of exactly that, and then all its answers are True resp. False. Issuing warnings changes no result. (With max_total_conds the rules are looked at before they are trimmed, so an empty model may come without a warning: a witness is given.)", "quantifier": "every table, label, initial model, hyperparameter setting and shuffle; IREP and RIPPER, any cn_optimize; every predict", "why_tests_cant": "all training runs", "anchors": [{"file": "wittgenstein/check.py", "symbols": ["_warn_only_single_class", "_check_df_allpos_allneg"]}, {"file": "wittgenstein/base.py", "symbols": ["Ruleset._check_allpos_allneg", "Ruleset.predict"]}, {"file": "wittgenstein/preprocess.py", "symbols": ["_get_pos_class"]}, {"file": "wittgenstein/irep.py", "symbols": ["IREP.fit"]}, {"file": "wittgenstein/ripper.py", "symbols": ["RIPPER.fit"]}]}
{"id": "C90", "title": "The caller's data is never modified", "statement": "fit, predict, predict_proba, score, rule_stats and recalibrate_proba, answered or raising, leave every DataFrame that exists (the caller's among them) as it was, and after any series of such calls the classifier is what the same calls on copies of the data would have made of it.", "quantifier": "every collection of frames, every data argument (frame, list or array), labels, names, hyperparameters, and every finite history of calls; IREP and RIPPER, any cn_optimize", "why_tests_cant": "all histories and data", "anchors": [{"file": "wittgenstein/preprocess.py", "symbols": ["_convert_to_training_df", "_convert_to_prediction_df", "preprocess_training_data", "preprocess_prediction_data", "_preprocess_recalibrate_proba_data"]}, {"file": "wittgenstein/discretize.py", "symbols": ["BinTransformer.transform"]}, {"file": "wittgenstein/abstract_ruleset_classifier.py", "symbols": ["AbstractRulesetClassifier.predict", "AbstractRulesetClassifier.recalibrate_proba"]}, {"file": "wittgenstein/irep.py", "symbols": ["IREP.fit"]}, {"file": "wittgenstein/ripper.py", "symbols": ["RIPPER.fit"]}]}
{"id": "C91", "title": "Separate and conquer: each rule is learned from exactly what no earlier learned rule covers", "statement": "Every learned rule of a model is the one grown (and cut) from exactly the positives and negatives that no rule learned before it covers; learning by IREP ends only when the learned rules cover all positives, a limit is reached or the next rule proposed is right on less than half of what it covers. In an optimisation pass a rule is kept or exchanged for the choice made from exactly the examples no rule before it covers. Two exceptions are part of the statement: IREP without pruning uses all negatives every time, and examples covered by rules of an initial model are not removed.", "quantifier": "every training set with unique row labels, class, hyperparameters, initial rules, shuffles; IREP and RIPPER, cn_optimize on and off; for RIPPER every growing phase and every optimisation pass", "why_tests_cant": "all data, shuffles and histories of learned rules", "anchors": [{"file": "wittgenstein/irep.py", "symbols": ["IREP._grow_ruleset", "IREP._grow_ruleset_cn"]}, {"file": "wittgenstein/ripper.py", "symbols": ["RIPPER._grow_ruleset", "RIPPER._grow_ruleset_cn", "RIPPER._optimize_ruleset", "RIPPER._optimize_ruleset_cn"]}, {"file": "wittgenstein/base_functions.py", "symbols": ["rm_covered", "rm_rule_covers_cn", "stop_early"]}]}
{"id": "C92", "title": "How the labels are passed makes no difference", "statement": "fit leaves the same object, or raises the same exception and leaves the same object behind, whether the labels are a column of the table (at any position among the others), or are passed separately as a list, or as a Series (with or without class_feat). Labels passed as a list without class_feat make a class column named 'Class'. recalibrate_proba likewise; and a class column in the data given to predict, predict_proba, score or rule_stats is ignored.", "quantifier": "every table, class column, positive class (given or inferred), hyperparameters, initial model and generator state; IREP and RIPPER, any cn_optimize; for queries every classifier state with a class column", "why_tests_cant": "all tables and hyperparameters", "anchors": [{"file": "wittgenstein/preprocess.py", "symbols": ["preprocess_training_data", "_convert_to_training_df", "_get_class_feat_name", "preprocess_prediction_data", "_convert_to_prediction_df", "_preprocess_recalibrate_proba_data"]}, {"file": "wittgenstein/irep.py", "symbols": ["IREP.fit"]}, {"file": "wittgenstein/ripper.py", "symbols": ["RIPPER.fit"]}]}
{"id": "C93", "title": "Limits only cut learning short", "statement": "Tightening max_rules, max_total_conds or min_ruleset_samples (everything else equal, same generator state) never makes an IREP fit fail that succeeded, and the model becomes a beginning of the looser model: the same first rules with the same calibration; hence it answers predict whenever the other does and predicts positive only where the other does. The growing phase of RIPPER likewise learns the same first rules (max_rules=k: exactly the first k), and with a smaller dl_allowance a beginning of them. A whole RIPPER fit need not (refuted): optimisation of a rule depends on the later ones.", "quantifier": "every dataset, initial model, generator and state, positive alpha and pair of settings of which one is at least as strict; IREP and RIPPER, any cn_optimize", "why_tests_cant": "all datasets, settings and random choices", "anchors": [{"file": "wittgenstein/irep.py", "symbols": ["IREP.fit", "_grow_ruleset", "_grow_ruleset_cn"]}, {"file": "wittgenstein/ripper.py", "symbols": ["_grow_ruleset", "_grow_ruleset_cn"]}, {"file": "wittgenstein/base_functions.py", "symbols": ["stop_early", "recalibrate_proba"]}, {"file": "wittgenstein/base.py", "symbols": ["Ruleset.trim_conds", "Ruleset.predict"]}]}
{"id": "C94", "title": "fit starts afresh", "statement": "What a fit returns or raises, and the object after a completed fit, depend on the object's hyperparameters only: nothing an earlier fit, init_ruleset, edit, recalibration or query left on it matters, so refitting is fitting a new object. Of the initial model only its conditions count (and with cn_optimize=False its possible_conds), not whether it was given as a ruleset, a text or a classifier, nor its calibration.", "quantifier": "every state of the object, dataset, initial model, generator and state; IREP and RIPPER, any cn_optimize", "why_tests_cant": "all histories of the object", "anchors": [{"file": "wittgenstein/irep.py", "symbols": ["IREP.fit"]}, {"file": "wittgenstein/ripper.py", "symbols": ["RIPPER.fit"]}, {"file": "wittgenstein/abstract_ruleset_classifier.py", "symbols": ["_ruleset_frommodel"]}, {"file": "wittgenstein/base.py", "symbols": ["asruleset"]}]}
{"id": "C95", "title": "Column names and categorical codes carry no information", "statement": "Fitting the same data under other column names, with the values of columns that are not binned recoded one-to-one (missing stays missing), gives the same model in the new names: the same rules in the same order with the same probabilities, the same bins, the same generator state, or the same exception; and predictions, probabilities, scores and reasons on data in the new names are the same. This needs that conditions print apart under the new names exactly if they do under the old ones (so if no name contains '=' and names print differently); with columns 'a' and 'a=b' it is false (refuted).", "quantifier": "every dataset, one-to-one renaming and recoding, initial model (a ruleset or classifier), generator and state, hyperparameters; IREP and RIPPER, with cn_optimize=False if the enumeration order of sets of values is recoded too (always so when only columns are renamed)", "why_tests_cant": "all datasets, renamings and random choices", "anchors": [{"file": "wittgenstein/irep.py", "symbols": ["IREP.fit", "_grow_ruleset", "_grow_ruleset_cn"]}, {"file": "wittgenstein/ripper.py", "symbols": ["RIPPER.fit", "_optimize_ruleset", "_optimize_ruleset_cn"]}, {"file": "wittgenstein/base_functions.py", "symbols": ["grow_rule", "grow_rule_cn", "prune_rule", "prune_rule_cn"]}, {"file": "wittgenstein/check.py", "symbols": ["CatNap"]}, {"file": "wittgenstein/base.py", "symbols": ["Rule.__eq__", "Cond.__str__", "Ruleset.predict"]}, {"file": "wittgenstein/preprocess.py", "symbols": ["preprocess_training_data", "preprocess_prediction_data"]}]}
{"id": "C96", "title": "Probabilities in floating point", "statement": "Computed in floating point, with every operation rounded and numpy adding up arrays in any order, probabilities are those of exact arithmetic up to a relative error of 2(3k+10)u for k rules (u is 2^-53 for doubles): predict_proba answers on the same data, its numbers are positive, add up to one up to that error, and are less than one if (M + 2 alpha) times the error is at most alpha for M calibration rows. fit learns the same rules, or raises the same exception, and recalibrate_proba stores the same counts.", "quantifier": "every rounding (relative error at most u on normal numbers), every order of summation, every labelled data of at most N rows (2^53 for doubles), every alpha > 0 that keeps the rates normal numbers, every ruleset of k rules with (3k+10)u at most 1/2, every data to predict with distinct labels; IREP and RIPPER, with and without the coverage index", "why_tests_cant": "all datasets, models, roundings and summation orders", "anchors": [{"file": "wittgenstein/base_functions.py", "symbols": ["recalibrate_proba", "additive_smoothed_rates"]}, {"file": "wittgenstein/utils.py", "symbols": ["weighted_avg_freqs"]}, {"file": "wittgenstein/base.py", "symbols": ["Ruleset.predict_proba"]}, {"file": "wittgenstein/irep.py", "symbols": ["IREP.fit"]}, {"file": "wittgenstein/ripper.py", "symbols": ["RIPPER.fit"]}]}
{"id": "C97", "title": "Verbosity changes nothing but what is printed", "statement": "The verbosity of a classifier decides what fit prints and nothing else: whatever model fit returns at some verbosity it returns at verbosity 0, and at verbosity 4 and below it returns or raises exactly what it returns or raises at verbosity 0. At verbosity 5 this takes, with cn_optimize=True, a column to learn from (without one, fit raises OverflowError while printing) and, for RIPPER, prune sets that are not empty (with prune_size=0 fit raises TypeError while printing). Only lines of the level asked for are printed, none at verbosity 0, and the last ruleset printed is the fitted one up to repeated rules and the cap of max_total_conds.", "quantifier": "every verbosity, dataset, hyperparameter, initial model, generator and rounding of training arithmetic; IREP and RIPPER with both values of cn_optimize", "why_tests_cant": "all verbosity levels, datasets and random states", "anchors": [{"file": "wittgenstein/base_functions.py", "symbols": ["grow_rule_cn", "prune_rule_cn", "best_rule_successor_cn", "grow_rule", "best_successor"]}, {"file": "wittgenstein/irep.py", "symbols": ["IREP.fit", "IREP._grow_ruleset_cn", "IREP._grow_ruleset"]}, {"file": "wittgenstein/ripper.py", "symbols": ["RIPPER.fit", "RIPPER._grow_ruleset_cn", "RIPPER._optimize_ruleset_cn", "_rs_total_bits_cn"]}, {"file": "wittgenstein/utils.py", "symbols": ["rnd"]}]}
{"id": "C98", "title": "A column that adds nothing leaves IREP's model as it is", "statement": "Training IREP on data with a constant column (or one with missing values only), or with a column that repeats a column to its left, possibly in other words, has the same outcome as training on the data without that column: the same exception, or the same rules in the same order with the same class counts and probabilities and the same random draws; no rule mentions the column, and the predictions, probabilities and reasons for any data are those of the model trained without it, for the data without it. For RIPPER this is false: its description lengths count the conditions the data offer. It is also false of a copy to the left: rules name the first of two equal columns.", "quantifier": "every dataset with such a column, every hyperparameter, initial model without the column, generator and rounding of training arithmetic; IREP with cn_optimize True or False, on preprocessed data and through fit, predict and predict_proba (feature_names not given) for columns that discretisation leaves alone", "why_tests_cant": "all datasets and all superfluous columns", "anchors": [{"file": "wittgenstein/base_functions.py", "symbols": ["best_rule_successor_cn", "gain_cn", "grow_rule_cn", "best_successor", "grow_rule"]}, {"file": "wittgenstein/check.py", "symbols": ["CatNap"]}, {"file": "wittgenstein/irep.py", "symbols": ["IREP.fit", "IREP._grow_ruleset_cn", "IREP._grow_ruleset"]}, {"file": "wittgenstein/base.py", "symbols": ["Ruleset.predict", "Ruleset.predict_proba", "Ruleset._update_possible_conds"]}, {"file": "wittgenstein/preprocess.py", "symbols": ["preprocess_training_data"]}, {"file": "wittgenstein/abstract_ruleset_classifier.py", "symbols": ["AbstractRulesetClassifier.predict", "AbstractRulesetClassifier.predict_proba"]}]}
{"id": "C99", "title": "IREP from an initial model: new rules behind the old, and fitting again changes nothing", "statement": "IREP fitted with an initial model (without repetitions, on columns of the data, no max_rules or max_total_conds) ends with the initial rules followed by exactly the rules it learns from scratch with the same random choices, in the same order and with the same counts, except those that print like an initial rule. Fitting IREP again on the same data from the model it has just learned (with random_state set, or without pruning; any limits) succeeds and leaves the same rules with the same counts. Both are false of RIPPER in general, and fitting again without a seed can add rules.", "quantifier": "every dataset, initial model, hyperparameter setting, generator, and rounding of training arithmetic; cn_optimize True and False; on preprocessed data and through fit(initial_model=...)", "why_tests_cant": "all datasets, initial models and random choices", "anchors": [{"file": "wittgenstein/irep.py", "symbols": ["IREP.fit", "IREP._grow_ruleset", "IREP._grow_ruleset_cn"]}, {"file": "wittgenstein/base_functions.py", "symbols": ["stop_early"]}, {"file": "wittgenstein/utils.py", "symbols": ["remove_duplicates"]}, {"file": "wittgenstein/abstract_ruleset_classifier.py", "symbols": ["AbstractRulesetClassifier._ruleset_frommodel"]}]}
{"id": "C100", "title": "When predict is the more probable class of predict_proba", "statement": "predict and predict_proba are independent of each other: predict says whether a rule fires, predict_proba averages class frequencies. If every fitted rule fires on more positive than negative training (calibration) rows, and of the rows no rule fires on no more are positive than negative, then on all data predict says True exactly where predict_proba gives the positive class more than 1/2; row by row, if a single rule fires its side is the row's side, whatever alpha. This always holds of IREP without pruning and limits on consistent data; it is false with the default settings of either classifier, where a row predicted True can even be less probable than one predicted False.", "quantifier": "every classifier fitted by either algorithm (cn_optimize True or False), alpha > 0, every history of queries and recalibrations, every prediction data with distinct labels", "why_tests_cant": "all data, models and smoothing constants", "anchors": [{"file": "wittgenstein/base.py", "symbols": ["Ruleset.predict", "Ruleset.predict_proba"]}, {"file": "wittgenstein/abstract_ruleset_classifier.py", "symbols": ["AbstractRulesetClassifier.predict", "AbstractRulesetClassifier.predict_proba", "AbstractRulesetClassifier.recalibrate_proba"]}, {"file": "wittgenstein/base_functions.py", "symbols": ["recalibrate_proba"]}, {"file": "wittgenstein/utils.py", "symbols": ["weighted_avg_freqs"]}]}
{"id": "C101", "title": "What the order of the training rows can influence", "statement": "Fitting IREP without pruning on the same examples in another order gives the same object (rules, class frequencies, everything) or the same exception, whatever the seeds, provided the positive class is named and the different values of each column, after discretisation, are still first met in the same order (with cn_optimize=False: among the positive rows and among the negative rows). recalibrate_proba never depends on the order of its examples. It is false if values are first met in another order (the condition met first wins a tie), and with pruning for both IREP and RIPPER, even with a seed.", "quantifier": "every training data, every reordering of its rows, every initial model, limits, generators and seeds, cn_optimize True or False; recalibration: every object and every reordering", "why_tests_cant": "all data and all orders of the rows", "anchors": [{"file": "wittgenstein/irep.py", "symbols": ["IREP.fit", "IREP._grow_ruleset", "IREP._grow_ruleset_cn"]}, {"file": "wittgenstein/base_functions.py", "symbols": ["grow_rule", "grow_rule_cn", "best_successor", "best_rule_successor_cn", "recalibrate_proba"]}, {"file": "wittgenstein/check.py", "symbols": ["CatNap"]}, {"file": "wittgenstein/preprocess.py", "symbols": ["preprocess_training_data"]}, {"file": "wittgenstein/abstract_ruleset_classifier.py", "symbols": ["AbstractRulesetClassifier.recalibrate_proba"]}]}
{"id": "C102", "title": "A classifier answers row by row", "statement": "On data with distinct row labels, predict and predict_proba (with or without reasons) answer a batch exactly if they answer each of its rows alone, and the answer lists the answers to the rows in order. So a batch may be cut into smaller batches, or put into another order, without changing any row's answer, also for discretised columns; and the covered-row counts of rule_stats add up over the parts of a batch. With repeated row labels (batches put together by pd.concat without ignore_index) this is false.", "quantifier": "every classifier (fitted, given its rules by init_ruleset, edited, or unusable), every batch with distinct row labels, every way to cut or reorder it, every feature_names", "why_tests_cant": "all batches and all ways to cut them", "anchors": [{"file": "wittgenstein/abstract_ruleset_classifier.py", "symbols": ["AbstractRulesetClassifier.predict", "AbstractRulesetClassifier.predict_proba", "AbstractRulesetClassifier.rule_stats"]}, {"file": "wittgenstein/preprocess.py", "symbols": ["preprocess_prediction_data"]}, {"file": "wittgenstein/discretize.py", "symbols": ["BinTransformer.transform", "BinTransformer._find_transformed"]}, {"file": "wittgenstein/base.py", "symbols": ["Ruleset.predict", "Ruleset.predict_proba"]}]}
{"id": "C103", "title": "RIPPER's decisions by description length with rounded numbers", "statement": "RIPPER computes description lengths in floating point. For at most m rules, every length it computes on the training data is within a stated error of the true number of bits; with doubles that error is below 0.00001 bit for 100 rules, 10 000 possible conditions and ten million rows (below 0.0001 bit with cn_optimize=False, where a row counts once for each rule that covers it). So every decision RIPPER makes by description length is right up to a small multiple of that error: simplification drops a rule only if that raises the length by less than twice the error and keeps one only if it adds at most twice the error; in an optimisation pass each rule is exchanged for an alternative of least length up to twice the error; and rules are added only while the length is at most dl_allowance, and three times the error, above the least one seen, and not stopped for that reason unless it exceeds dl_allowance less three times the error.", "quantifier": "both settings of cn_optimize, every rounding of at least stated precision (doubles included), training set (with cn_optimize=True: with distinct row labels), ruleset, hyperparameters, generator", "why_tests_cant": "all datasets, rulesets and ways to round; error accumulates over rules and steps", "anchors": [{"file": "wittgenstein/ripper.py", "symbols": ["_r_theory_bits", "_rs_theory_bits", "_exceptions_bits", "_rs_total_bits", "RIPPER._grow_ruleset_cn", "RIPPER._optimize_ruleset_cn"]}]}
{"id": "C104", "title": "Of the class labels only which rows are positive counts", "statement": "Fitting one class against the rest: if two calls of fit get the same data, and labels and positive classes that name the same rows as positive - however many classes the other rows are divided into, missing labels included, and however the classes are written - they have the same outcome: the same exception, or the same rules, probabilities, bins and draws, in objects that differ only in the positive class they record. Such objects answer alike: the same predictions, reasons and probabilities on any data, and the same score and rule statistics on labels that name the same rows as positive; and recalibrate_proba with such labels changes them alike. An initial model must not test the class column.", "quantifier": "every dataset, pair of labellings that agree on which rows are positive (lists, Series, or a column of the data), of the four training methods, hyperparameters, initial model not testing the class column, generator, arithmetic; every query data", "why_tests_cant": "all datasets, labellings and random draws; the class column is a column like any other until the examples are split", "anchors": [{"file": "wittgenstein/irep.py", "symbols": ["IREP.fit"]}, {"file": "wittgenstein/ripper.py", "symbols": ["RIPPER.fit"]}, {"file": "wittgenstein/preprocess.py", "symbols": ["preprocess_training_data", "_convert_to_training_df"]}, {"file": "wittgenstein/base_functions.py", "symbols": ["pos", "neg", "recalibrate_proba"]}, {"file": "wittgenstein/abstract_ruleset_classifier.py", "symbols": ["AbstractRulesetClassifier.score", "AbstractRulesetClassifier.rule_stats", "AbstractRulesetClassifier.recalibrate_proba"]}]}
{"id": "C105", "title": "Growing and pruning rules with rounded numbers", "statement": "With double-precision numbers and logarithms that err by at most one unit in the last place, rules are still grown greedily: while a rule covers negatives and no limit is reached, a candidate of truly positive gain is added, whose true gain is within 0.00001 of the best candidate's, and growth stops only when no negatives are covered, no candidate has a positive gain, or a limit is reached (up to eight million examples; without rounding the gain added is the best one exactly). Rounding the other quotients of training - prune metrics, precisions, accuracies - changes nothing: every prefix kept by pruning, every decision of IREP to keep or reject a rule, and the outcome of fit are the same as with exact quotients (up to sixty million examples).", "quantifier": "every dataset with at most the stated number of rows, candidates, limits, initial rule, generator, hyperparameters, initial model; every arithmetic whose operations err by at most the given relative error", "why_tests_cant": "all datasets and all roundings within the error bounds; a test sees the rounding of one machine on a few numbers", "anchors": [{"file": "wittgenstein/base_functions.py", "symbols": ["grow_rule", "grow_rule_cn", "best_successor", "best_rule_successor_cn", "gain", "gain_cn", "prune_rule", "prune_rule_cn", "precision", "rule_precision_cn", "_accuracy", "_rule_accuracy_cn"]}, {"file": "wittgenstein/irep.py", "symbols": ["IREP.fit", "_IREP_prune_metric", "_IREP_prune_metric_cn"]}, {"file": "wittgenstein/ripper.py", "symbols": ["RIPPER.fit", "_RIPPER_growphase_prune_metric", "_RIPPER_growphase_prune_metric_cn", "_RIPPER_optimization_prune_metric", "_RIPPER_optimization_prune_metric_cn"]}]}
{"id": "C106", "title": "RIPPER's growing phase with cn_optimize=False", "statement": "With cn_optimize=False too, RIPPER's growing phase adds rule after rule only while the description length - of the added rules and of the exceptions to all rules on all training examples, a row counting once for each rule that covers it - is at most dl_allowance bits above the least one seen so far in the phase. The phase ends only when all its positives are covered, that allowance is exceeded, a limit (max_rules, max_total_conds, min_ruleset_samples) is reached, the growing part of the remaining positives is empty, or the grown rule is empty; the examples it leaves are exactly those no added rule covers.", "quantifier": "every dataset (for the examples left: with distinct labels), random choice, initial ruleset, dl_allowance, limits and hyperparameters", "why_tests_cant": "all runs of the growing phase", "anchors": [{"file": "wittgenstein/ripper.py", "symbols": ["RIPPER._grow_ruleset", "_r_theory_bits", "_exceptions_bits"]}, {"file": "wittgenstein/base_functions.py", "symbols": ["stop_early", "rm_covered"]}]}
{"id": "C107", "title": "What fitting RIPPER with cn_optimize=False can raise", "statement": "On valid data, with an initial model (if any) that mentions no other columns than those of the data and not the class, RIPPER.fit(..., cn_optimize=False) raises nothing but a ZeroDivisionError, a ValueError or an UnboundLocalError (for each there are data that make it). With max_rules=1 and no initial model it raises nothing at all, if every column has two different values that occur in both classes.", "quantifier": "every valid dataset, generator, hyperparameters with a prune_size that leaves something to prune on and positive alpha, initial model, rounding", "why_tests_cant": "no test shows that no other data make fit raise something else", "anchors": [{"file": "wittgenstein/ripper.py", "symbols": ["RIPPER.fit", "RIPPER._grow_ruleset", "RIPPER._optimize_ruleset", "RIPPER._cover_remaining_positives", "_exceptions_bits", "_r_theory_bits"]}, {"file": "wittgenstein/base_functions.py", "symbols": ["prune_rule", "_accuracy"]}]}
{"id": "C108", "title": "What alpha and n_discretize_bins influence", "statement": "alpha influences nothing but the smoothed frequencies: fit with another positive alpha raises the same exception, or learns the same rules with the same counts, features and bins, leaves the same state of the generator and smooths the same counts with the other alpha; recalibrate_proba likewise; predict answers the same (or raises the same). The larger alpha, the nearer to 1/2 is each smoothed frequency, on the same side of it. n_discretize_bins influences nothing if no numeric column has more different values than bins, under either number: fit then does the same, and leaves the same object but for the parameter.", "quantifier": "both classes and cn_optimize settings, every data, generator, hyperparameters, pair of positive alphas, pair of numbers of bins (None included), initial model, arithmetic", "why_tests_cant": "a test compares two values of the parameter on one dataset", "anchors": [{"file": "wittgenstein/base_functions.py", "symbols": ["recalibrate_proba", "additive_smoothed_rates"]}, {"file": "wittgenstein/irep.py", "symbols": ["IREP.fit"]}, {"file": "wittgenstein/ripper.py", "symbols": ["RIPPER.fit"]}, {"file": "wittgenstein/discretize.py", "symbols": ["find_continuous_feats"]}]}
{"id": "C109", "title": "Limits out of reach have no effect", "statement": "The early-stopping parameters do nothing unless they are within reach: max_rules of at least the rules of the initial model plus twice the rows (IREP: plus the positive rows), max_rule_conds of at least the number of columns with the class column, min_rule_samples and min_ruleset_samples of at most 1. fit with other values out of reach, or with None, raises the same exception or learns the same rules with the same frequencies and leaves the same state of the generator. A minimum of one sample per rule needs a max_rule_conds out of reach for that: where max_rule_conds stops a growing rule, its last condition is popped if and only if min_rule_samples is set.", "quantifier": "both classes, with cn_optimize=True every valid data without repeated row labels, with cn_optimize=False any data; lawful generator, every hyperparameters, pair of limits differing only out of reach, initial model, lawful arithmetic", "why_tests_cant": "a test compares two values of a limit on one dataset", "anchors": [{"file": "wittgenstein/base_functions.py", "symbols": ["stop_early", "grow_rule", "grow_rule_cn"]}, {"file": "wittgenstein/irep.py", "symbols": ["IREP.fit", "_grow_ruleset", "_grow_ruleset_cn"]}, {"file": "wittgenstein/ripper.py", "symbols": ["RIPPER.fit", "_grow_ruleset", "_grow_ruleset_cn", "_optimize_ruleset", "_optimize_ruleset_cn", "_cover_remaining_positives", "_cover_remaining_positives_cn"]}]}
{"id": "C110", "title": "Scores of a test set lie between those of its parts", "statement": "Splitting test data with distinct row labels, and its class labels, in two: predict answers both parts if it answers the whole, and whatever function is scored, it gets for the whole the labels and predictions it gets for the one part followed by those for the other. So the accuracy of the whole is the mean of those of the parts weighted by their sizes, and precision and recall lie between those of the parts (or equal the one that is defined; undefined if both are). F1 lies between those of the parts if both are defined; if one part has no true positive, the F1 of the whole is at most that of the other part.", "quantifier": "every classifier with a positive class, test data with distinct row labels, split into two non-empty parts, class labels, lists of labels and predictions", "why_tests_cant": "a test scores one split of one test set", "anchors": [{"file": "wittgenstein/abstract_ruleset_classifier.py", "symbols": ["score"]}, {"file": "wittgenstein/base_functions.py", "symbols": ["score_accuracy", "score_precision", "score_recall", "score_f1"]}]}
{"id": "C111", "title": "What editing one rule changes", "statement": "On data with distinct row labels and the tested columns: removing a rule changes the predictions of exactly the rows of which it is the only reason (give_reasons), from True to False; each row keeps its other reasons, in order. So a rule can be removed without changing any prediction on the data if and only if every row it covers is covered by a rule at another position. Adding a rule changes the predictions of exactly the rows without a reason that it covers, from False to True, and it becomes the last reason of every row it covers. With repeated row labels a removed rule can matter without having been a reason (refuted).", "quantifier": "every ruleset, data with the tested columns and distinct row labels, position of a rule, new rule", "why_tests_cant": "all rulesets and data", "anchors": [{"file": "wittgenstein/base.py", "symbols": ["Ruleset.predict", "Ruleset.remove", "Ruleset.add"]}, {"file": "wittgenstein/abstract_ruleset_classifier.py", "symbols": ["remove_rule_at", "add_rule"]}]}
