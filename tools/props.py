#!/usr/bin/env python3
"""Source of /verif/properties.jsonl (run to regenerate)."""
import json, os
B="wittgenstein/base.py"; F="wittgenstein/base_functions.py"; I="wittgenstein/irep.py"; R="wittgenstein/ripper.py"
C="wittgenstein/catnap.py"; A="wittgenstein/abstract_ruleset_classifier.py"; P="wittgenstein/preprocess.py"
D="wittgenstein/discretize.py"; U="wittgenstein/utils.py"; K="wittgenstein/check.py"; T="wittgenstein/interpret.py"
props=[]
def p(title, statement, quantifier, why, *anchors):
    props.append(dict(id="C%02d"%(len(props)+1), title=title, statement=statement, quantifier=quantifier,
      why_tests_cant=why, anchors=[{"file":a[0],"symbols":[y for x in a[1:] for y in ([x] if isinstance(x,str) else x)]} for a in anchors]))

p("A prediction is the DNF of the rules",
  "Ruleset.predict(X) returns True for a row exactly when some rule has all of its conditions (feature == value) met by that row, provided the index labels of X are distinct.",
  "every ruleset, every frame X with distinct index labels that has the features the rules test, every row",
  "rulesets, frames and cell values are unbounded; a test fixes a handful",
  (B,"Ruleset.predict","Ruleset.covers","Rule.covers","Cond.covers"))
p("A prediction depends on its own row only",
  "The prediction made for a row does not change when other rows of the batch are added, removed or altered. (True only for distinct index labels: with repeated labels a row inherits its namesake's prediction.)",
  "every ruleset, every two batches sharing a row, every index labelling",
  "quantifies over all contexts a row can be put in",
  (B,"Ruleset.predict"))
p("One prediction per row, in row order",
  "predict returns exactly one boolean per row of X, and reordering the rows of X reorders the predictions in the same way, whatever the index labels.",
  "every ruleset, every frame, every permutation of its rows", "all permutations of unbounded frames",
  (B,"Ruleset.predict"))
p("give_reasons lists exactly the covering rules",
  "With give_reasons=True the reasons of a row are exactly the rules of the ruleset that cover it, in ruleset order; the list is empty iff the prediction is False. (Needs distinct index labels.)",
  "every ruleset, every frame with distinct labels, every row", "unbounded inputs; completeness ('exactly') cannot be sampled",
  (B,"Ruleset.predict"))
p("Universal and null rulesets",
  "A ruleset containing an empty rule predicts True for every row of any frame, even one lacking the other rules' features; a ruleset with no rules predicts False for every row.",
  "every frame and every ruleset that contains an empty rule or has no rule", "all frames",
  (B,"Ruleset.isuniversal","Ruleset.isnull","Ruleset.covers","Ruleset.predict"))
p("Editing is monotone in the predictions",
  "add_rule and insert_rule never turn a True prediction into False; remove_rule never turns False into True; adding a condition to a rule never enlarges, and removing one never shrinks, what the rule covers.",
  "every ruleset, every rule, every position, every frame with distinct labels, every row", "relational property over all pairs of models",
  (B,"Ruleset.add","Ruleset.insert","Ruleset.remove","Rule.covers"))
p("Rule order, condition order and repetition do not affect predictions",
  "Permuting or repeating the rules of a ruleset, or the conditions inside a rule, leaves every prediction unchanged.",
  "every two rulesets with the same set of rules / rules with the same set of conditions, every frame", "all permutations of unbounded rulesets",
  (B,"Ruleset.covers","Rule.covers","Ruleset.predict"))
p("Equal rulesets predict alike",
  "If two rulesets compare equal with ==, they make the same predictions on every frame. (True when feature names and values are text without '='; false in general because equality compares printed text.)",
  "every two rulesets with rs1 == rs2, every frame", "all pairs of rulesets and all frames",
  (B,"Ruleset.__eq__","Rule.__eq__","Cond.__str__"))
p("Equal rules hash equal",
  "Rules that compare equal have equal hashes, so set- and dict-based de-duplication agrees with ==. (True for rules without repeated conditions; false otherwise.)",
  "every two rules", "all pairs of rules",
  (B,"Rule.__eq__","Rule.__hash__"),(U,"remove_duplicates"))
p("Rule and ruleset equality are equivalence relations",
  "== on Rules and on Rulesets is reflexive, symmetric and transitive; on Conds it is symmetric and transitive, and reflexive unless the value is NaN.",
  "every two or three objects", "all triples of objects",
  (B,"Ruleset.__eq__","Rule.__eq__","Cond.__eq__"))
p("Missing features are reported, never mispredicted",
  "For a freshly fit or initialised model, predict raises IndexError iff a feature the rules use is missing from X, and otherwise it does not raise on missing columns. (False after add_rule/remove_rule: the stored feature list is stale.)",
  "every model, every history of edits, every X", "all histories of edits followed by all frames",
  (A,"AbstractRulesetClassifier.predict","AbstractRulesetClassifier.init_ruleset","AbstractRulesetClassifier.add_rule"),(K,"_check_model_features_present"),(P,"preprocess_prediction_data"))
p("Unused columns do not influence predictions",
  "Adding, removing, reordering or altering columns no rule tests (the class column included) does not change any prediction.",
  "every ruleset, every two frames agreeing on labels and tested columns", "all pairs of frames",
  (B,"Ruleset.predict","Cond.covers"),(P,"_convert_to_prediction_df"))
p("The editing API is a list",
  "Any sequence of add / insert / replace / remove calls, by index or by rule, successful or failing, leaves the ruleset in the state a plain list of rules would be in; by-rule calls act on the first rule that compares equal.",
  "every initial ruleset and every finite history of edit calls", "all finite histories",
  (B,"Ruleset.add","Ruleset.remove","Ruleset.remove_rule","Ruleset.insert","Ruleset.insert_rule","Ruleset.replace","Ruleset.replace_rule"),(K,"_check_valid_index","_check_rule_exists"))
p("Failed edits are atomic",
  "An edit call that raises (bad index, unknown rule, unparsable rule text) leaves the ruleset unchanged, and it raises exactly when the index is outside 0..len-1, the named rule is absent, or the text does not parse.",
  "every ruleset, every edit call", "all failing inputs",
  (B,"Ruleset.remove","Ruleset.insert","Ruleset.replace","Ruleset.remove_rule","Ruleset.insert_rule","Ruleset.replace_rule"),(K,"_check_valid_index","_check_rule_exists"))
p("Printing then parsing gives the model back",
  "ruleset_fromstr(str(rs)) reproduces rs, rule by rule and condition by condition. (True when rules are non-empty and names and values are text free of whitespace, quotes, commas, brackets, backslashes, '^', '=' and 'V'; false otherwise.)",
  "every ruleset", "all strings; the failing characters are found only by proof",
  (B,"ruleset_fromstr","rule_fromstr","cond_fromstr","Ruleset.__str__","Rule.__str__","Cond.__str__"))
p("The parser is total and exact",
  "For every text, ruleset_fromstr either raises ValueError or returns one rule per 'V'-separated piece and one condition per '^'-separated piece; it raises iff some piece has not exactly one '=' (and is not a literal for the empty rule).",
  "every string", "all strings",
  (B,"ruleset_fromstr","rule_fromstr","cond_fromstr"),(U,"drop_chars"))
p("Indexed coverage equals DataFrame coverage for rules",
  "On a frame with distinct labels, CatNap.rule_covers(rule, subset) is the set of labels in subset whose row satisfies every condition of the rule, for every rule over the non-class columns (including values never seen); cond_covers(cond, subset) likewise for one condition, and for none on the class column or a missing one.",
  "every frame with distinct labels, every rule, every subset of labels (or none)", "refinement over all data",
  (C,"CatNap.__init__","CatNap.rule_covers","CatNap.cond_covers"),(B,"Rule.covers"))
p("Indexed coverage equals DataFrame coverage for rulesets",
  "CatNap.ruleset_covers(ruleset, subset) is the set of labels in subset whose row is covered by some rule. (False for a universal ruleset and an empty subset, where it returns all labels.)",
  "every frame with distinct labels, every ruleset, every subset", "all data; the corner is subset = {} and a universal ruleset",
  (C,"CatNap.ruleset_covers"))
p("Optimised and plain rule growth agree",
  "With the same candidate conditions and the same examples, grow_rule_cn and grow_rule return the same rule.",
  "every frame with distinct labels, positive/negative example sets, candidate list, initial rule and limits", "equivalence of two loops over all data",
  (F,"grow_rule","grow_rule_cn","best_successor","best_rule_successor_cn","gain","gain_cn"))
p("Rule growth terminates and only refines",
  "grow_rule_cn halts on every input after at most one step per covered negative; its result is the initial rule followed by candidate conditions, each added one strictly shrinking the covered negatives (apart from a final pop under min_rule_samples).",
  "every dataset, initial rule and limits", "termination and a loop invariant over all inputs",
  (F,"grow_rule_cn","best_rule_successor_cn","gain_cn"))
p("Grown rules never repeat a feature and keep covering a positive",
  "A rule grown from the empty rule tests each feature at most once and covers at least one of the positives it was grown on.",
  "every dataset with at least one positive, all limits", "needs the sign analysis of the gain formula for all counts",
  (F,"grow_rule_cn","best_rule_successor_cn","gain_cn"))
p("max_rule_conds bounds every learned rule",
  "No rule of a fitted model has more than max_rule_conds conditions. (Proved for IREP and RIPPER's growth phases; false for RIPPER after optimisation, which does not receive the limit.)",
  "every dataset, every seed, every limit", "all datasets and random choices",
  (F,"grow_rule_cn"),(I,"IREP._grow_ruleset_cn"),(R,"RIPPER.fit","RIPPER._optimize_ruleset_cn"))
p("min_rule_samples bounds rule coverage",
  "A grown rule covers at least min_rule_samples growing examples. (Only true of rules that still cover a negative; a rule without negatives is accepted however few samples it covers.)",
  "every dataset and limit", "all datasets",
  (F,"grow_rule_cn"))
p("Pruning keeps the best non-empty prefix",
  "prune_rule returns a non-empty prefix of the rule's conditions whose metric is maximal among all non-empty prefixes (when any is >= 0), the shortest such prefix on ties, and the unpruned rule if all are negative.",
  "every non-empty rule, every metric function, every prune set", "optimality over all prefixes and metrics",
  (F,"prune_rule","prune_rule_cn"))
p("Pruning only generalises",
  "Every example covered by a rule is covered by its pruned version, and the empty rule is never produced from a non-empty one.",
  "every rule, metric and dataset", "all datasets",
  (F,"prune_rule","prune_rule_cn"))
p("IREP training terminates",
  "IREP's ruleset growth halts for every dataset, every random choice and every setting of the limits: each added rule removes at least one remaining positive.",
  "every dataset, shuffle outcome and hyperparameter setting", "termination over all inputs and random schedules",
  (I,"IREP._grow_ruleset_cn","IREP._grow_ruleset"))
p("IREP without pruning covers every training positive",
  "With prune_size=None and no early-stopping limits, the fitted IREP model predicts True for every positive training example.",
  "every training frame with distinct labels, every shuffle", "all datasets",
  (I,"IREP.fit","IREP._grow_ruleset_cn"))
p("IREP only keeps rules that are right at least half the time",
  "With pruning on, every rule IREP adds covers at least as many positives as negatives of the prune set it was judged on, and at least one positive.",
  "every dataset, every shuffle", "all datasets and random splits",
  (I,"IREP._grow_ruleset_cn"),(F,"rule_precision_cn"))
p("No label leakage",
  "Every condition of a fitted model (other than those of a supplied initial model) tests a non-class column of the training data for a value that occurs in it.",
  "every dataset, seed and hyperparameter setting, IREP and RIPPER", "all datasets",
  (I,"IREP.fit"),(R,"RIPPER.fit"),(C,"CatNap.possible_conds"))
p("max_rules is respected",
  "A fitted model has at most max(max_rules, size of the initial model) rules.",
  "every dataset, seed, max_rules >= 0, IREP and RIPPER", "all datasets and seeds",
  (F,"stop_early"),(I,"IREP.fit"),(R,"RIPPER.fit"))
p("max_total_conds is respected",
  "A fitted model has at most max_total_conds conditions in total, for IREP and RIPPER, even with an oversized initial model.",
  "every dataset, seed, max_total_conds >= 0", "all datasets and seeds",
  (B,"Ruleset.trim_conds"),(I,"IREP.fit"),(R,"RIPPER.fit"))
p("No duplicate rules after fit",
  "No two rules of a fitted model have the same conditions up to order; de-duplication keeps first occurrences in order and does not change predictions.",
  "every list of rules", "all rule lists",
  (U,"remove_duplicates"),(I,"IREP.fit"),(R,"RIPPER.fit"))
p("IREP keeps the initial model",
  "Fitting IREP from a duplicate-free initial model that fits the limits yields a model that starts with exactly the initial rules, in order.",
  "every initial model, dataset and seed", "all datasets and models",
  (I,"IREP.fit","IREP._grow_ruleset_cn"),(A,"AbstractRulesetClassifier._ruleset_frommodel"))
p("RIPPER training terminates",
  "RIPPER's growth, optimisation and covering stages halt for every dataset, random choice, k, dl_allowance and limits.",
  "every dataset, shuffle outcome and hyperparameter setting", "termination over all inputs and random schedules",
  (R,"RIPPER.fit","RIPPER._grow_ruleset_cn","RIPPER._optimize_ruleset_cn","RIPPER._cover_remaining_positives_cn"))
p("Training does not raise arithmetic errors",
  "With cn_optimize=True, no initial model, 0 < prune_size < 1 and alpha > 0, RIPPER.fit and IREP.fit never raise ZeroDivisionError, a math domain error, AttributeError or UnboundLocalError, on any labelled frame with distinct labels. (False for RIPPER with prune_size=None and for cn_optimize=False.)",
  "every labelled frame, seed and hyperparameter setting in range", "absence of crashes over all inputs",
  (R,"_r_theory_bits","_exceptions_bits_cn","_rs_total_bits_cn"),(F,"prune_rule_cn","nCr","additive_smoothed_rates"),(I,"_IREP_prune_metric_cn"))
p("random_state makes training reproducible",
  "With random_state set, the fitted rules do not depend on the state of Python's global random generator, hence on anything executed before fit.",
  "every dataset, every prior history of the generator", "all prior histories",
  (F,"random_split","set_shuffled_split"),(I,"IREP.fit"),(R,"RIPPER.fit"))
p("Grow/prune splits are partitions of the right size",
  "random_split and set_shuffled_split return two parts that together hold every element exactly once; the first part has floor(n*split_size) elements for 0<=split_size<=1, and the prune part is non-empty whenever n>0 and split_size<1.",
  "every collection, split size and shuffle", "all sizes and permutations",
  (F,"random_split","set_shuffled_split","df_shuffled_split"))
p("predict_proba returns probability distributions",
  "After fit with alpha>0, every row of predict_proba has a negative and a positive entry strictly between 0 and 1 summing to 1; rows predicted negative all get the same pair, and rows predicted positive get the mean of the smoothed class frequencies of exactly their covering rules.",
  "every dataset used to calibrate, every ruleset, every X with distinct labels, alpha>0", "all datasets; exact arithmetic identity",
  (B,"Ruleset.predict_proba"),(U,"weighted_avg_freqs"),(F,"additive_smoothed_rates","recalibrate_proba"))
p("Recalibration never changes predictions and its counts add up",
  "recalibrate_proba changes no prediction; afterwards each rule's class counts sum to the number of calibration rows it covers, and the uncovered counts sum to the number of calibration rows predicted negative.",
  "every ruleset, every labelled calibration frame with distinct labels, every alpha", "all datasets",
  (F,"recalibrate_proba"))
p("require_min_samples protects calibration",
  "recalibrate_proba with require_min_samples=True leaves the probabilities alone if some rule lacks min_samples calibration samples, as its documentation says. (False: the parameter is ignored.)",
  "every model, calibration set and min_samples", "all inputs",
  (F,"recalibrate_proba"),(A,"AbstractRulesetClassifier.recalibrate_proba"))
p("predict_proba works whenever predict works",
  "On any model on which predict succeeds, predict_proba succeeds too. (False: after init_ruleset or add_rule it raises AttributeError; proved for models calibrated after the last edit.)",
  "every model and history of edits", "all histories",
  (B,"Ruleset.predict_proba"),(A,"AbstractRulesetClassifier.predict_proba","AbstractRulesetClassifier.add_rule","AbstractRulesetClassifier.init_ruleset"))
p("Scores are what their names say",
  "score_accuracy, score_precision, score_recall and score_f1 equal (tp+tn)/n, tp/(tp+fp), tp/(tp+fn) and 2tp/(2tp+fp+fn), lie in [0,1], are None exactly when undefined (f1 also when tp=0), and raise ValueError exactly on a length mismatch.",
  "every pair of boolean lists", "all lists",
  (F,"score_accuracy","score_precision","score_recall","score_f1","_f1"))
p("nCr is the binomial coefficient",
  "nCr(n, r) equals n choose r for all naturals n, r (0 when r>n), and is 1 for r <= 0 whatever n.",
  "every n and r", "all integers",
  (F,"nCr"))
p("argmin returns the first minimum",
  "argmin(xs) is the least index whose value is minimal.",
  "every non-empty list", "all lists",
  (F,"argmin"))
p("num_covered counts examples",
  "Ruleset.num_covered(X) is the number of rows of X that the ruleset covers. (False when rules overlap: covered rows are counted once per covering rule.)",
  "every ruleset and frame", "all overlaps",
  (B,"Ruleset.covers","Ruleset.num_covered"))
p("Stage-4 simplification only removes rules",
  "The description-length simplification returns a sub-list of the rules in order, always keeps the first rule, and drops a later rule exactly when adding it to the preceding prefix strictly increases the description length.",
  "every ruleset and dataset", "all rulesets",
  (R,"_rs_total_bits_cn","_rs_total_bits"))
p("Optimisation keeps the rule count",
  "An optimisation pass returns as many rules as it was given; each rule is the original one, its replacement or its revision, whichever has the least description length (the earliest on ties), unless that one is already present.",
  "every ruleset, dataset and shuffle", "all datasets",
  (R,"RIPPER._optimize_ruleset_cn"),(F,"argmin"))
p("Bins partition the number line",
  "Bins built from an increasing threshold list, with the ends extended to infinity, cover every number exactly once; transform sends a value to a bin whose range contains it and is monotone.",
  "every increasing threshold list and every number", "all real thresholds and values",
  (D,"BinTransformer.fit","BinTransformer._thresholds_to_intervals","BinTransformer.transform"))
p("Both discretisation engines use inclusive upper bounds",
  "A value equal to a bin's upper bound is placed in that bin, by both engines. (True for the pandas engine; false for the numpy engine.)",
  "every threshold list and value", "all boundary values",
  (D,"BinTransformer.transform","BinTransformer._numpy_cut","BinTransformer._pandas_cut"))
p("Bin labels denote their interval",
  "Parsing the text label of a bin gives back the interval it was printed from, open ends and negative or exponent-notation bounds included.",
  "every interval", "all numbers",
  (D,"BinTransformer._interval_to_str","BinTransformer._str_to_floor_ceil","BinTransformer.find_floor_ceil"))
p("Discretisation is idempotent",
  "Transforming data that has already been transformed changes nothing, and transform touches no column other than the fitted ones. (Fails with ValueError when a numeric value was missing or fell between bins.)",
  "every frame and fitted binner", "all frames",
  (D,"BinTransformer.transform","BinTransformer._find_transformed"))
p("Hyperparameters survive get_params/set_params/clone",
  "Rebuilding a classifier from its get_params gives one with the same hyperparameters. (False for min_rule_samples, which get_params omits.)",
  "every hyperparameter assignment, every sequence of set_params", "all assignments",
  (A,"AbstractRulesetClassifier.get_params","AbstractRulesetClassifier.set_params"),(R,"RIPPER.get_params"))
p("Positive/negative split and class inference",
  "Each training row goes to exactly one of positives and negatives; an inferred positive class is True/1 for boolean or 0/1 labels, the single label if there is just one non-zero label, and any other case raises NameError.",
  "every label column", "all label columns",
  (F,"pos_neg_split","pos","neg"),(P,"_get_pos_class"))
p("init_ruleset models are usable on raw data",
  "A model given by init_ruleset predicts without raising on any X having its features, and its numeric-range conditions match the numeric values inside the range. (False: range conditions never match raw numbers, and predict raises for values with two dashes or a ' - ' and for non-text values.)",
  "every ruleset text, every X", "all condition values",
  (A,"AbstractRulesetClassifier._ensure_has_bin_transformer","AbstractRulesetClassifier.init_ruleset"),(D,"BinTransformer.construct_from_ruleset","BinTransformer.find_floor_ceil"))
p("trim_conds keeps the longest fitting prefix",
  "trim_conds(m) keeps the longest prefix of rules whose total condition count is at most m.",
  "every ruleset and m", "all rulesets",
  (B,"Ruleset.trim_conds","Ruleset.count_conds"))
p("Selected features are exactly the tested features",
  "get_selected_features lists each feature tested by some rule exactly once, in order of first appearance; get_conds lists every condition of the model.",
  "every ruleset", "all rulesets",
  (B,"Ruleset.get_selected_features","Ruleset.get_conds"))
p("rule_stats counts are correct",
  "rule_stats reports for each rule, in order, the number and proportion of rows it covers and, given y, its precision, recall and F1 as a classifier of its own. (Distinct index labels.)",
  "every model, X and y", "all datasets",
  (A,"AbstractRulesetClassifier.rule_stats"))
p("Removing covered examples is exact",
  "rm_covered / rm_rule_covers_cn keep exactly the examples the object does not cover, so training stages never lose or duplicate an example.",
  "every object, every example sets with distinct labels", "all datasets",
  (F,"rm_covered","rm_rule_covers_cn"))
p("Information gain is positive only for real improvements",
  "The FOIL gain of a refinement is positive iff it keeps at least one positive and strictly increases the smoothed precision (p+1)/(p+n+1); then it strictly reduces covered negatives. Re-adding a condition has gain 0.",
  "all counts p1<=p0, n1<=n0", "all naturals",
  (F,"gain","gain_cn"))
p("RIPPER grows only within the description-length allowance",
  "RIPPER's growing phase adds rule after rule only while the description length of rules and exceptions is at most dl_allowance bits above the least one seen so far in the phase.",
  "every dataset with distinct labels, random choice, dl_allowance and limits", "all runs of the growing phase",
  (R,"RIPPER._grow_ruleset_cn","_r_theory_bits","_exceptions_bits_cn"))
p("RIPPER's growing phase stops only for a reason",
  "The growing phase ends only when all its positives are covered, the description length exceeded the least one seen by more than dl_allowance, a limit (max_rules, max_total_conds, min_ruleset_samples) is reached, the growing part of the remaining positives is empty, or the grown rule is empty; the examples it leaves are exactly those no added rule covers.",
  "every dataset with distinct labels, random choice and hyperparameters", "all runs of the growing phase",
  (R,"RIPPER._grow_ruleset_cn"),(F,"stop_early","rm_rule_covers_cn"))
p("What a failed fit leaves behind",
  "When the data is rejected (empty, wrong names, missing or misplaced labels, positive class not recognisable), RIPPER.fit leaves the object exactly as it was; IREP.fit has already replaced the learned rules by the initial model (the empty ruleset if none), keeping class, bins and stored features. An unreadable initial model: IREP.fit leaves the object as it was, RIPPER.fit leaves the old rules with the new data's class, positive class and bins.",
  "every object state, every rejected input, every initial model", "all states and failing inputs",
  (I,"IREP.fit"),(R,"RIPPER.fit"),(P,"preprocess_training_data"))
p("Queries are read-only and repeatable",
  "Any series of predict (with or without reasons), predict_proba, score and rule_stats calls, answered or raising, leaves a fitted classifier exactly as it was, and every query then answers or raises as it would have before. On a classifier without a bin transformer the calls can at most create an empty one: answers stay, but a query that raised may answer when repeated.",
  "every classifier state and every finite series of queries on any data", "all histories",
  (A,"AbstractRulesetClassifier.predict","AbstractRulesetClassifier.predict_proba","AbstractRulesetClassifier.score","AbstractRulesetClassifier.rule_stats","AbstractRulesetClassifier._ensure_has_bin_transformer"))
p("A fitted model's answers read off the raw data",
  "Whenever predict of a fitted classifier answers on data with distinct row labels, row i is predicted positive exactly if some rule has all its conditions met by the raw row, where a condition on a binned numeric column means that the raw number lies in the range its label denotes.",
  "every successful fit of IREP or RIPPER, any cn_optimize, on any data, every later X with distinct labels", "all data, bins and rules",
  (A,"AbstractRulesetClassifier.predict"),(D,"BinTransformer.transform"),(P,"preprocess_prediction_data"))
p("Labels are matched to rows by position",
  "A list or array y must have one label per row (else ValueError) and is matched by position. A Series of the right length is matched by position whatever the indexes, the data taking over the Series' row labels. A Series of another length without repeated labels is not rejected: it is matched by row label, and rows without a label get a missing class.",
  "every X, every y", "all indexes and lengths",
  (P,"_convert_to_training_df","_check_valid_input_data"))
p("feature_names renames",
  "predict(X, feature_names=ns) answers as predict on X with its columns renamed to ns, if neither X nor ns contains the class column. Names are given by position: a wrong number is a ValueError, else the i-th name gets the cells and dtype of the i-th column. fit with names is fit on the renamed data. If ns (one name per column) contains the class column and X does not, predict raises ValueError.",
  "every classifier, X and list of names, every fit", "all frames and names",
  (P,"preprocess_prediction_data","_convert_to_prediction_df"))
p("Which columns are discretised",
  "fit makes bins for a column iff it is numeric, is not the class, has more than n_discretize_bins different values and its values fall into at least two bins; each binned column gets at least two bins and at most n_discretize_bins; every other column reaches training with the caller's values.",
  "every training frame and n_discretize_bins", "all frames",
  (D,"BinTransformer.fit","BinTransformer.find_continuous_feats"),(P,"preprocess_training_data"))
p("score evaluates predict",
  "score(X, y, fn) raises whatever predict(X) raises and otherwise is fn(actuals, predictions) with the predictions of predict(X), the i-th actual being True iff the i-th label equals the positive class; the default score is the fraction of rows whose prediction agrees with their label, and ValueError on a length mismatch.",
  "every classifier, X, y and scoring function", "all inputs",
  (A,"AbstractRulesetClassifier.score"),(R,"RIPPER.score"),(F,"score_accuracy"))
p("Growth separates the classes; unpruned IREP reproduces consistent data",
  "A rule grown without max_rule_conds and min_rule_samples, on positives without missing values, covers a growing negative only if that row agrees on every column but the class with every growing positive it covers. So IREP with prune_size None or 0, without limits and initial model, on data in which no positive row agrees with a negative one on every other column and nothing prints like something else, predicts True on exactly the positive training rows, if the computed gain of a refinement with larger precision is positive (exact arithmetic; doubles up to eight million rows, C81). (A positive row with a missing value can force the empty rule.)",
  "every dataset with distinct labels, every shuffle", "optimality of a greedy search over all data; needs an averaging argument on the gain",
  (F,"grow_rule_cn","best_rule_successor_cn","gain_cn"),(I,"IREP.fit","IREP._grow_ruleset_cn"))

p("cn_optimize=False tests only values found in both classes",
  "With cn_optimize=False, every condition of a model learned from data holds of at least one positive and one negative training row (or was listed as possible by the initial model). So if the values of every column tell the classes apart, IREP learns at most the empty rule, which predicts True on everything, and RIPPER learns no rule, although the default learns to separate the classes.",
  "every dataset, shuffle, limit, set iteration order and initial model", "all data and all runs of a randomised algorithm",
  (B,"Ruleset._update_possible_conds"),(I,"IREP._grow_ruleset"),(R,"RIPPER._grow_ruleset"))
p("When cn_optimize makes no difference",
  "On distinct row labels IREP grows, with cn_optimize=False, exactly the rules the coverage index would lead to if it considered only the conditions whose value occurs in both classes, on the same shuffles and with the same exceptions; so if every value of every column occurs in both classes (enumerated in order of appearance) the fitted model is the same. In general the switch changes the model: witnesses for IREP and RIPPER.",
  "every dataset with distinct labels, every shuffle, hyperparameter setting and initial model", "two implementations must agree on all inputs: a refinement",
  (I,"IREP._grow_ruleset","IREP._grow_ruleset_cn"),(F,"grow_rule","grow_rule_cn","best_successor","rm_covered"))
p("Training with cn_optimize=False terminates",
  "fit with cn_optimize=False halts on every input (repeated labels and missing values included), for IREP and RIPPER; IREP learns at most one rule per positive training row.",
  "every dataset, generator, set iteration order, hyperparameters and initial model", "termination over all executions",
  (I,"IREP._grow_ruleset"),(R,"RIPPER._grow_ruleset","RIPPER._optimize_ruleset","RIPPER._cover_remaining_positives"))
p("Limits and coverage with cn_optimize=False",
  "Models fitted with cn_optimize=False have at most max_rules rules (or as many as the initial model), at most max_total_conds conditions and no two rules printing alike; IREP's learned rules have at most max_rule_conds conditions. IREP without pruning and limits predicts True for every positive training row, on distinct labels and data in which nothing prints like something else.",
  "every dataset, shuffle and limits", "invariants of all runs",
  (I,"IREP._grow_ruleset"),(R,"RIPPER.fit","RIPPER._grow_ruleset"))
p("Exceptions with cn_optimize=False",
  "IREP.fit with cn_optimize=False raises nothing on non-empty data for alpha > 0 and a prune_size that is None, 0 or leaves something to prune on (without rounding, any value up to 1). RIPPER.fit with cn_optimize=False can fail on valid data with distinct labels on which the default succeeds: ZeroDivisionError for a rule that uses every possible condition (always), ValueError and UnboundLocalError because rows covered by several rules are counted several times.",
  "every dataset, label list, shuffle and limits", "all runs; the failures depend on data, shuffle and overlap of rules",
  (I,"IREP._grow_ruleset"),(R,"RIPPER.fit","_exceptions_bits","_r_theory_bits"),(F,"_accuracy"))

p("Reproducibility with cn_optimize=False",
  "With random_state set, two fits with cn_optimize=False on the same data with the same settings give the same model within one process, and whenever sets of values are enumerated alike. (Across processes they need not: the order of a set of text values depends on the hash seed of the process and decides ties between conditions.)",
  "every dataset, seed, hyperparameter setting and enumeration order of sets", "depends on the hash seed of the process, not on anything a test sets",
  (B,"Ruleset._update_possible_conds"),(F,"best_successor"),(I,"IREP.fit"),(R,"RIPPER.fit"))

p("fit refuses ill-formed training data exactly",
"fit refuses data without rows, without labels (ValueError), with class_feat not among the columns (IndexError), with a Series y named otherwise than class_feat (NameError), with too few or many feature_names or list labels, or with a Series of another length and repeated labels (ValueError); the checks are made in this order, by both classes. After them, if the positive class is not named, it refuses labels of exactly two classes, one text and one not (TypeError), and labels that are neither all 0/1 nor all alike (NameError). In the documented parameter range and without an initial model, IREP.fit, and RIPPER.fit on distinct row labels, raise in exactly these cases; else they return, having named the class column class_feat, or like the Series, or 'Class', and set the positive class to the one named, or 1, or the common label. recalibrate_proba (alpha > 0) on a fitted classifier refuses the same, further text in a binned column that is not one of its labels (ValueError) and a missing tested column (IndexError), and nothing else; it then changes nothing. So after a fit with a list of labels it refuses every Series of labels not named 'Class'.",
"every dataset, object state, seed and hyperparameter setting in range","all ill-formed inputs",
(P,["_check_valid_input_data","_convert_to_training_df","_get_class_feat_name","preprocess_training_data","_preprocess_recalibrate_proba_data"]),(I,["IREP.fit"]),(R,["RIPPER.fit"]))
p("Rulesets as surrogates of other models",
  "interpret_model(X, model, interpreter) fits the interpreter to the model's predictions on X: it leaves the interpreter as interpreter.fit(X, predictions) does, raises what that raises, and returns the fitted ruleset; if the model raises, so does interpret_model, with the interpreter untouched. The predictions are those of model_predict_function if given, of predict for sklearn and unknown models, of calling the model for torch, and 'predict > 0.5' for keras and tensorflow. Every 0/1-valued model is interpreted without an exception (parameters in range; for RIPPER, distinct row labels; default cn_optimize). With a seed the result does not depend on what the (shared default) interpreter learned before. score_fidelity is by default the fraction of rows where interpreter and model agree, and with several score functions the list of their scores; an unpruned IREP surrogate of a model that gives alike (discretised) rows the same answer has fidelity 1 on X. (An array of one prediction is taken for a single label: interpret_model applies it to every row, and score_fidelity on one row of data raises TypeError.)",
  "every model (a function of X that may raise), dataset, interpreter state, seed, prediction function and score function",
  "all foreign models, all interpreter histories and unbounded data",
  (T,"interpret_model","score_fidelity","model_predict"),(U,"try_np_tonum"))
p("Classifiers and rulesets do not share rules",
  "In any program, copy() gives an equal classifier, and copy(), init_ruleset(model) and a fit that returns leave the classifier with rules of its own, whatever Ruleset or classifier was passed as the model: no later calls on it (edits, recalibration, fits, queries, returning or raising, in any order) change any object there was before, and none on other objects change it. fit never changes its initial_model. In a program that puts no Rule object into two places, no two objects ever share rules, and every method does to a classifier what it does to it as a value and changes no other object. (An IREP fit that raises leaves the classifier bound to the Ruleset object passed as initial_model itself: editing the classifier then changes the caller's Ruleset.)",
  "every program: any number of classifier, Ruleset and Rule objects, any sequence of API calls on them, exceptions caught",
  "aliasing shows only in particular histories of calls on several objects; there are infinitely many",
  (A,"AbstractRulesetClassifier.copy","AbstractRulesetClassifier.init_ruleset","AbstractRulesetClassifier._ruleset_frommodel","AbstractRulesetClassifier.recalibrate_proba"),(B,"asruleset","asrule","Ruleset.add","Ruleset.replace","Ruleset.insert","Ruleset.remove"),(I,"IREP.fit"),(R,"RIPPER.fit"),(F,"recalibrate_proba"))
p("Shared Rule objects",
  "The conditions of a Rule object never change once it exists. So two classifiers or Rulesets may be given the same Rule objects: no calls on the one ever change the other's predict, score or rule_stats. (They may change its predict_proba: recalibrate_proba writes the class frequencies into the shared Rule objects.)",
  "every program, every history of calls, every dataset", "all histories of calls on objects that share rules",
  (B,"asrule","Ruleset.add","Rule"),(F,"recalibrate_proba"),(A,"AbstractRulesetClassifier.add_rule"))
p("RIPPER's choices by description length with cn_optimize=False",
  "With cn_optimize=False too, the final simplification keeps the first rule and exactly those later rules whose addition to all rules before them does not increase the description length in bits. An optimisation pass returns as many rules as it was given; at each rule it reaches, it cuts a replacement (grown from nothing) and a revision (grown from the rule) to the prefix with which the whole ruleset is most accurate on the pruning rows, and takes whichever of rule, replacement and revision makes the simplified ruleset shortest on all training rows, the earliest on ties, unless an equal rule is already there. (In these counts a row counts once for each rule that covers it, so they are those of the indexed version only while no row is covered twice.)",
  "every training set, list of rules, split, generator state and hyperparameter setting for which the computation succeeds",
  "all rulesets, all data, all splits; compares sums of logarithms",
  (R,"RIPPER._optimize_ruleset","_rs_total_bits","_exceptions_bits","_r_theory_bits","RIPPER.fit"),(F,"prune_rule","argmin","_accuracy"))
p("Training with rounded numbers",
  "The claims about training (termination, exceptions, which rows rules cover, limits, invariants of the model) do not depend on exact arithmetic: they hold for any computation of gains, metrics and description lengths that obeys a few laws, and every rounding that is monotone, has a relative error of at most u <= 1/4 and keeps small integers, with any monotone logarithm, obeys them. So with IEEE doubles fit raises nothing on valid data for prune_size None (IREP), 0 (IREP) or from 2^-52 to 1; and, if the logarithm errs by at most one unit in the last place, unpruned IREP reproduces consistent training data of up to eight million rows. (A prune_size so small that 1 - prune_size rounds to 1, like 1e-17, leaves nothing to prune on: IREP raises ZeroDivisionError or learns nothing.)",
  "every rounding and logarithm as described, every dataset, shuffle and hyperparameter setting in range",
  "all floating-point formats and libraries; rounding errors show on few inputs",
  (F,"gain","gain_cn","precision","rule_precision_cn","random_split","df_shuffled_split"),(I,"IREP.fit"),(R,"RIPPER.fit"))
p("Optimisation passes",
  "RIPPER's optimisation runs at most k passes, each on the rules returned by the one before, and stops early exactly after a pass that returned the very rules it was given, although rulesets are compared by what they print, in any order. With a random_state stopping early makes no difference: the outcome is that of all k passes, and once a pass changes nothing, fit has the same outcome for every larger k.",
  "every index, ruleset, training set, k, generator and hyperparameter setting, with either value of cn_optimize",
  "all rulesets and all sequences of passes",
  (R,"RIPPER.fit","RIPPER._optimize_ruleset_cn","RIPPER._optimize_ruleset"),(B,"Ruleset.__eq__"))
p("out_model prints the model",
  "out_model prints one line per rule, in order (one line [] for an empty model), whatever characters names and values contain; a line shows the rule as str(rule) does, with spaces around ^. The printed text, given to init_ruleset, makes a model with the same rules and conditions in the same order exactly if no rule is empty and names and values are text without white space, quotes ', commas, brackets, backslashes, ^, =, V or control characters. truncstr shows the first or last `limit` rules of a longer ruleset, for limit >= 1. (truncstr(0, 'right') shows all of them.)",
  "every ruleset, fitted model and classifier, every limit and direction",
  "all names and values, in any script",
  (B,"Ruleset.out_pretty","Ruleset.truncstr","Rule.__str__","ruleset_fromstr"),(A,"AbstractRulesetClassifier.out_model","AbstractRulesetClassifier.init_ruleset"))
p("Discretising with the numpy engine",
  "BinTransformer(engine='numpy').fit raises only for n_discretize_bins=1, exactly when some numeric column holds one number besides missing values (AttributeError). Otherwise a column gets bins exactly if it is numeric, not ignored, has more than n_discretize_bins >= 2 different values and its least and greatest number differ after rounding to names_precision places; it then has exactly n_discretize_bins labels, which read as the ranges between thresholds: the rounded quantiles if all different, otherwise rounded evenly spaced points. transform succeeds on any table without foreign text in a fitted column: every number gets the label of the bin whose lower threshold is at most it and whose upper threshold is above it (the end bins are open-ended), in order; a missing value gets the last label. (So a column of small numbers may stay undiscretised, and some labels may be empty ranges like '1.0 - 1.0'.)",
  "every table, number of bins, precision and ignored columns; every table transformed; every numpy whose quantile, linspace and rounding are monotone with the right ends",
  "all columns of numbers",
  (D,"BinTransformer.fit","BinTransformer._numpy_cut","BinTransformer._thresholds_to_intervals","BinTransformer.transform","BinTransformer.fit_transform","BinTransformer.find_continuous_feats"))
p("Every learned condition pulls its weight",
  "In a model fitted without an initial model (row labels distinct if cn_optimize=True), every condition of every rule is met, together with the conditions printed before it, by some positive training row, and fails on some negative training row that meets all the conditions before it. So each rule with conditions fires on a training positive, and dropping its last condition makes it fire on more training negatives. With an initial model this holds of every condition beyond a beginning taken from an initial rule. On raw data: a condition on a binned column means that the number lies in its range. (An earlier condition may be made superfluous by later ones, and a rule by later rules: a witness is given.)",
  "every training table, shuffle, hyperparameter setting and limit; IREP and RIPPER, any cn_optimize; every rule and every condition in it",
  "all data and shuffles",
  (I,"IREP.fit","IREP._grow_ruleset","IREP._grow_ruleset_cn"),(R,"RIPPER.fit","RIPPER._grow_ruleset_cn","RIPPER._optimize_ruleset_cn","RIPPER._cover_remaining_positives_cn"),(F,"grow_rule","grow_rule_cn","prune_rule","best_successor","best_rule_successor_cn"))
p("IREP without pruning is deterministic",
  "IREP with prune_size None or 0 involves no chance: fit leaves the same model (or raises the same exception) for every generator, every state of it and every random_state; only the attribute random_state itself differs. (With pruning the model does depend on the shuffles: a witness is given.)",
  "every table, generator, generator state, seed, initial model and other hyperparameters, with either value of cn_optimize",
  "all generators and states; a test tries a few seeds",
  (I,"IREP.fit","IREP._grow_ruleset","IREP._grow_ruleset_cn"),(F,"df_shuffled_split","set_shuffled_split","random_split"))
p("Row labels carry no information",
  "As long as row labels are distinct, what they are does not matter: predict, predict_proba, score, their reasons, rule_stats and recalibrate_proba answer the same; fit with cn_optimize=False, or of IREP without pruning, leaves the same model or raises the same exception; with the index and pruning, where the labels decide the order in which Python enumerates sets, the possible outcomes are the same. A Series y with one value per row overrides the labels of X entirely. (With repeated labels all this fails: a witness is given.)",
  "every two labellings of the rows of every table, every method, hyperparameter setting, initial model and shuffle that does not look at the labels",
  "all labellings",
  (I,"IREP.fit"),(R,"RIPPER.fit"),(A,"AbstractRulesetClassifier.predict","AbstractRulesetClassifier.recalibrate_proba","AbstractRulesetClassifier.rule_stats"),(P,"preprocess_training_data","_convert_to_training_df"),(C,"CatNap"))
p("rule_stats shows examples",
  "rule_stats(X, y, n_examples=n) answers with the table of rule_stats(X, y) and, for each rule in order, example rows of the (discretised) data on which it fires: all of them for n=-1, n different ones for n > 0 (all if there are fewer), each with its own row's label in the class column if y is given. Any other n is a ValueError, unless the model has no rules. With random_state the answer is reproducible. The object is unchanged. (With repeated row labels and y it raises: a witness is given.)",
  "every model, every X with distinct row labels and the stored features, every y, n, seed and sampler",
  "all tables and samples",
  (A,"AbstractRulesetClassifier.rule_stats"))
p("Warnings are true and complete",
  "fit warns 'No positive samples' exactly when no row of the labelled data has the positive class (given or inferred) and 'No negative samples' exactly when all have it. If the fitted model has a rule without conditions, 'Ruleset is universal' was warned of; if 'Ruleset is empty' was, the fitted model has no rules; unless max_total_conds is set, each is warned of exactly when it is so. predict warns of exactly that, and then all its answers are True resp. False. Issuing warnings changes no result. (With max_total_conds the rules are looked at before they are trimmed, so an empty model may come without a warning: a witness is given.)",
  "every table, label, initial model, hyperparameter setting and shuffle; IREP and RIPPER, any cn_optimize; every predict",
  "all training runs",
  (K,"_warn_only_single_class","_check_df_allpos_allneg"),(B,"Ruleset._check_allpos_allneg","Ruleset.predict"),(P,"_get_pos_class"),(I,"IREP.fit"),(R,"RIPPER.fit"))
p("The caller's data is never modified",
  "fit, predict, predict_proba, score, rule_stats and recalibrate_proba, answered or raising, leave every DataFrame that exists (the caller's among them) as it was, and after any series of such calls the classifier is what the same calls on copies of the data would have made of it.",
  "every collection of frames, every data argument (frame, list or array), labels, names, hyperparameters, and every finite history of calls; IREP and RIPPER, any cn_optimize",
  "all histories and data",
  (P,"_convert_to_training_df","_convert_to_prediction_df","preprocess_training_data","preprocess_prediction_data","_preprocess_recalibrate_proba_data"),(D,"BinTransformer.transform"),(A,"AbstractRulesetClassifier.predict","AbstractRulesetClassifier.recalibrate_proba"),(I,"IREP.fit"),(R,"RIPPER.fit"))
p("Separate and conquer: each rule is learned from exactly what no earlier learned rule covers",
  "Every learned rule of a model is the one grown (and cut) from exactly the positives and negatives that no rule learned before it covers; learning by IREP ends only when the learned rules cover all positives, a limit is reached or the next rule proposed is right on less than half of what it covers. In an optimisation pass a rule is kept or exchanged for the choice made from exactly the examples no rule before it covers. Two exceptions are part of the statement: IREP without pruning uses all negatives every time, and examples covered by rules of an initial model are not removed.",
  "every training set with unique row labels, class, hyperparameters, initial rules, shuffles; IREP and RIPPER, cn_optimize on and off; for RIPPER every growing phase and every optimisation pass",
  "all data, shuffles and histories of learned rules",
  (I,"IREP._grow_ruleset","IREP._grow_ruleset_cn"),(R,"RIPPER._grow_ruleset","RIPPER._grow_ruleset_cn","RIPPER._optimize_ruleset","RIPPER._optimize_ruleset_cn"),(F,"rm_covered","rm_rule_covers_cn","stop_early"))
p("How the labels are passed makes no difference",
  "fit leaves the same object, or raises the same exception and leaves the same object behind, whether the labels are a column of the table (at any position among the others), or are passed separately as a list, or as a Series (with or without class_feat). Labels passed as a list without class_feat make a class column named 'Class'. recalibrate_proba likewise; and a class column in the data given to predict, predict_proba, score or rule_stats is ignored.",
  "every table, class column, positive class (given or inferred), hyperparameters, initial model and generator state; IREP and RIPPER, any cn_optimize; for queries every classifier state with a class column",
  "all tables and hyperparameters",
  (P,"preprocess_training_data","_convert_to_training_df","_get_class_feat_name","preprocess_prediction_data","_convert_to_prediction_df","_preprocess_recalibrate_proba_data"),(I,"IREP.fit"),(R,"RIPPER.fit"))
p("Limits only cut learning short",
  "Tightening max_rules, max_total_conds or min_ruleset_samples (everything else equal, same generator state) never makes an IREP fit fail that succeeded, and the model becomes a beginning of the looser model: the same first rules with the same calibration; hence it answers predict whenever the other does and predicts positive only where the other does. The growing phase of RIPPER likewise learns the same first rules (max_rules=k: exactly the first k), and with a smaller dl_allowance a beginning of them. A whole RIPPER fit need not (refuted): optimisation of a rule depends on the later ones.",
  "every dataset, initial model, generator and state, positive alpha and pair of settings of which one is at least as strict; IREP and RIPPER, any cn_optimize",
  "all datasets, settings and random choices",
  (I,"IREP.fit","_grow_ruleset","_grow_ruleset_cn"),(R,"_grow_ruleset","_grow_ruleset_cn"),(F,"stop_early","recalibrate_proba"),(B,"Ruleset.trim_conds","Ruleset.predict"))
p("fit starts afresh",
  "What a fit returns or raises, and the object after a completed fit, depend on the object's hyperparameters only: nothing an earlier fit, init_ruleset, edit, recalibration or query left on it matters, so refitting is fitting a new object. Of the initial model only its conditions count (and with cn_optimize=False its possible_conds), not whether it was given as a ruleset, a text or a classifier, nor its calibration.",
  "every state of the object, dataset, initial model, generator and state; IREP and RIPPER, any cn_optimize",
  "all histories of the object",
  (I,"IREP.fit"),(R,"RIPPER.fit"),(A,"_ruleset_frommodel"),(B,"asruleset"))
p("Column names and categorical codes carry no information",
  "Fitting the same data under other column names, with the values of columns that are not binned recoded one-to-one (missing stays missing), gives the same model in the new names: the same rules in the same order with the same probabilities, the same bins, the same generator state, or the same exception; and predictions, probabilities, scores and reasons on data in the new names are the same. This needs that conditions print apart under the new names exactly if they do under the old ones (so if no name contains '=' and names print differently); with columns 'a' and 'a=b' it is false (refuted).",
  "every dataset, one-to-one renaming and recoding, initial model (a ruleset or classifier), generator and state, hyperparameters; IREP and RIPPER, with cn_optimize=False if the enumeration order of sets of values is recoded too (always so when only columns are renamed)",
  "all datasets, renamings and random choices",
  (I,"IREP.fit","_grow_ruleset","_grow_ruleset_cn"),(R,"RIPPER.fit","_optimize_ruleset","_optimize_ruleset_cn"),(F,"grow_rule","grow_rule_cn","prune_rule","prune_rule_cn"),(K,"CatNap"),(B,"Rule.__eq__","Cond.__str__","Ruleset.predict"),(P,"preprocess_training_data","preprocess_prediction_data"))
p("Probabilities in floating point",
  "Computed in floating point, with every operation rounded and numpy adding up arrays in any order, probabilities are those of exact arithmetic up to a relative error of 2(3k+10)u for k rules (u is 2^-53 for doubles): predict_proba answers on the same data, its numbers are positive, add up to one up to that error, and are less than one if (M + 2 alpha) times the error is at most alpha for M calibration rows. fit learns the same rules, or raises the same exception, and recalibrate_proba stores the same counts.",
  "every rounding (relative error at most u on normal numbers), every order of summation, every labelled data of at most N rows (2^53 for doubles), every alpha > 0 that keeps the rates normal numbers, every ruleset of k rules with (3k+10)u at most 1/2, every data to predict with distinct labels; IREP and RIPPER, with and without the coverage index",
  "all datasets, models, roundings and summation orders",
  (F,"recalibrate_proba","additive_smoothed_rates"),(U,"weighted_avg_freqs"),(B,"Ruleset.predict_proba"),(I,"IREP.fit"),(R,"RIPPER.fit"))
p("Verbosity changes nothing but what is printed",
  "The verbosity of a classifier decides what fit prints and nothing else: whatever model fit returns at some verbosity it returns at verbosity 0, and at verbosity 4 and below it returns or raises exactly what it returns or raises at verbosity 0. At verbosity 5 this takes, with cn_optimize=True, a column to learn from (without one, fit raises OverflowError while printing) and, for RIPPER, prune sets that are not empty (with prune_size=0 fit raises TypeError while printing). Only lines of the level asked for are printed, none at verbosity 0, and the last ruleset printed is the fitted one up to repeated rules and the cap of max_total_conds.",
  "every verbosity, dataset, hyperparameter, initial model, generator and rounding of training arithmetic; IREP and RIPPER with both values of cn_optimize",
  "all verbosity levels, datasets and random states",
  (F,"grow_rule_cn","prune_rule_cn","best_rule_successor_cn","grow_rule","best_successor"),(I,"IREP.fit","IREP._grow_ruleset_cn","IREP._grow_ruleset"),(R,"RIPPER.fit","RIPPER._grow_ruleset_cn","RIPPER._optimize_ruleset_cn","_rs_total_bits_cn"),(U,"rnd"))
p("A column that adds nothing leaves IREP's model as it is",
  "Training IREP on data with a constant column (or one with missing values only), or with a column that repeats a column to its left, possibly in other words, has the same outcome as training on the data without that column: the same exception, or the same rules in the same order with the same class counts and probabilities and the same random draws; no rule mentions the column, and the predictions, probabilities and reasons for any data are those of the model trained without it, for the data without it. For RIPPER this is false: its description lengths count the conditions the data offer. It is also false of a copy to the left: rules name the first of two equal columns.",
  "every dataset with such a column, every hyperparameter, initial model without the column, generator and rounding of training arithmetic; IREP with cn_optimize True or False, on preprocessed data and through fit, predict and predict_proba (feature_names not given) for columns that discretisation leaves alone",
  "all datasets and all superfluous columns",
  (F,"best_rule_successor_cn","gain_cn","grow_rule_cn","best_successor","grow_rule"),(K,"CatNap"),(I,"IREP.fit","IREP._grow_ruleset_cn","IREP._grow_ruleset"),(B,"Ruleset.predict","Ruleset.predict_proba","Ruleset._update_possible_conds"),(P,"preprocess_training_data"),(A,"AbstractRulesetClassifier.predict","AbstractRulesetClassifier.predict_proba"))
p("IREP from an initial model: new rules behind the old, and fitting again changes nothing",
  "IREP fitted with an initial model (without repetitions, on columns of the data, no max_rules or max_total_conds) ends with the initial rules followed by exactly the rules it learns from scratch with the same random choices, in the same order and with the same counts, except those that print like an initial rule. Fitting IREP again on the same data from the model it has just learned (with random_state set, or without pruning; any limits) succeeds and leaves the same rules with the same counts. Both are false of RIPPER in general, and fitting again without a seed can add rules.",
  "every dataset, initial model, hyperparameter setting, generator, and rounding of training arithmetic; cn_optimize True and False; on preprocessed data and through fit(initial_model=...)",
  "all datasets, initial models and random choices",
  (I,"IREP.fit","IREP._grow_ruleset","IREP._grow_ruleset_cn"),(F,"stop_early"),(U,"remove_duplicates"),(A,"AbstractRulesetClassifier._ruleset_frommodel"))
p("When predict is the more probable class of predict_proba",
  "predict and predict_proba are independent of each other: predict says whether a rule fires, predict_proba averages class frequencies. If every fitted rule fires on more positive than negative training (calibration) rows, and of the rows no rule fires on no more are positive than negative, then on all data predict says True exactly where predict_proba gives the positive class more than 1/2; row by row, if a single rule fires its side is the row's side, whatever alpha. This always holds of IREP without pruning and limits on consistent data; it is false with the default settings of either classifier, where a row predicted True can even be less probable than one predicted False.",
  "every classifier fitted by either algorithm (cn_optimize True or False), alpha > 0, every history of queries and recalibrations, every prediction data with distinct labels",
  "all data, models and smoothing constants",
  (B,"Ruleset.predict","Ruleset.predict_proba"),(A,"AbstractRulesetClassifier.predict","AbstractRulesetClassifier.predict_proba","AbstractRulesetClassifier.recalibrate_proba"),(F,"recalibrate_proba"),(U,"weighted_avg_freqs"))
p("What the order of the training rows can influence",
  "Fitting IREP without pruning on the same examples in another order gives the same object (rules, class frequencies, everything) or the same exception, whatever the seeds, provided the positive class is named and the different values of each column, after discretisation, are still first met in the same order (with cn_optimize=False: among the positive rows and among the negative rows). recalibrate_proba never depends on the order of its examples. It is false if values are first met in another order (the condition met first wins a tie), and with pruning for both IREP and RIPPER, even with a seed.",
  "every training data, every reordering of its rows, every initial model, limits, generators and seeds, cn_optimize True or False; recalibration: every object and every reordering",
  "all data and all orders of the rows",
  (I,"IREP.fit","IREP._grow_ruleset","IREP._grow_ruleset_cn"),(F,"grow_rule","grow_rule_cn","best_successor","best_rule_successor_cn","recalibrate_proba"),(K,"CatNap"),(P,"preprocess_training_data"),(A,"AbstractRulesetClassifier.recalibrate_proba"))
p("A classifier answers row by row",
  "On data with distinct row labels, predict and predict_proba (with or without reasons) answer a batch exactly if they answer each of its rows alone, and the answer lists the answers to the rows in order. So a batch may be cut into smaller batches, or put into another order, without changing any row's answer, also for discretised columns; and the covered-row counts of rule_stats add up over the parts of a batch. With repeated row labels (batches put together by pd.concat without ignore_index) this is false.",
  "every classifier (fitted, given its rules by init_ruleset, edited, or unusable), every batch with distinct row labels, every way to cut or reorder it, every feature_names",
  "all batches and all ways to cut them",
  (A,"AbstractRulesetClassifier.predict","AbstractRulesetClassifier.predict_proba","AbstractRulesetClassifier.rule_stats"),(P,"preprocess_prediction_data"),(D,"BinTransformer.transform","BinTransformer._find_transformed"),(B,"Ruleset.predict","Ruleset.predict_proba"))
p("RIPPER's decisions by description length with rounded numbers",
  "RIPPER computes description lengths in floating point. For at most m rules, every length it computes on the training data is within a stated error of the true number of bits; with doubles that error is below 0.00001 bit for 100 rules, 10 000 possible conditions and ten million rows. So every decision RIPPER makes by description length is right up to a small multiple of that error: simplification drops a rule only if that raises the length by less than twice the error and keeps one only if it adds at most twice the error; in an optimisation pass each rule is exchanged for an alternative of least length up to twice the error; and rules are added only while the length is at most dl_allowance, and three times the error, above the least one seen, and not stopped for that reason unless it exceeds dl_allowance less three times the error.",
  "every rounding of at least stated precision (doubles included), training set with distinct row labels, ruleset, hyperparameters, generator",
  "all datasets, rulesets and ways to round; error accumulates over rules and steps",
  (R,"_r_theory_bits","_rs_theory_bits","_exceptions_bits","_rs_total_bits","RIPPER._grow_ruleset_cn","RIPPER._optimize_ruleset_cn"))
p("Of the class labels only which rows are positive counts",
  "Fitting one class against the rest: if two calls of fit get the same data, and labels and positive classes that name the same rows as positive - however many classes the other rows are divided into, missing labels included, and however the classes are written - they have the same outcome: the same exception, or the same rules, probabilities, bins and draws, in objects that differ only in the positive class they record. Such objects answer alike: the same predictions, reasons and probabilities on any data, and the same score and rule statistics on labels that name the same rows as positive; and recalibrate_proba with such labels changes them alike. An initial model must not test the class column.",
  "every dataset, pair of labellings that agree on which rows are positive (lists, Series, or a column of the data), of the four training methods, hyperparameters, initial model not testing the class column, generator, arithmetic; every query data",
  "all datasets, labellings and random draws; the class column is a column like any other until the examples are split",
  (I,"IREP.fit"),(R,"RIPPER.fit"),(P,"preprocess_training_data","_convert_to_training_df"),(F,"pos","neg","recalibrate_proba"),(A,"AbstractRulesetClassifier.score","AbstractRulesetClassifier.rule_stats","AbstractRulesetClassifier.recalibrate_proba"))
p("Growing and pruning rules with rounded numbers",
  "With double-precision numbers and logarithms that err by at most one unit in the last place, rules are still grown greedily: while a rule covers negatives and no limit is reached, a candidate of truly positive gain is added, whose true gain is within 0.00001 of the best candidate's, and growth stops only when no negatives are covered, no candidate has a positive gain, or a limit is reached (up to eight million examples; without rounding the gain added is the best one exactly). Rounding the other quotients of training - prune metrics, precisions, accuracies - changes nothing: every prefix kept by pruning, every decision of IREP to keep or reject a rule, and the outcome of fit are the same as with exact quotients (up to sixty million examples).",
  "every dataset with at most the stated number of rows, candidates, limits, initial rule, generator, hyperparameters, initial model; every arithmetic whose operations err by at most the given relative error",
  "all datasets and all roundings within the error bounds; a test sees the rounding of one machine on a few numbers",
  (F,"grow_rule","grow_rule_cn","best_successor","best_rule_successor_cn","gain","gain_cn","prune_rule","prune_rule_cn","precision","rule_precision_cn","_accuracy","_rule_accuracy_cn"),(I,"IREP.fit","_IREP_prune_metric","_IREP_prune_metric_cn"),(R,"RIPPER.fit","_RIPPER_growphase_prune_metric","_RIPPER_growphase_prune_metric_cn","_RIPPER_optimization_prune_metric","_RIPPER_optimization_prune_metric_cn"))
p("RIPPER's growing phase with cn_optimize=False",
  "With cn_optimize=False too, RIPPER's growing phase adds rule after rule only while the description length - of the added rules and of the exceptions to all rules on all training examples, a row counting once for each rule that covers it - is at most dl_allowance bits above the least one seen so far in the phase. The phase ends only when all its positives are covered, that allowance is exceeded, a limit (max_rules, max_total_conds, min_ruleset_samples) is reached, the growing part of the remaining positives is empty, or the grown rule is empty; the examples it leaves are exactly those no added rule covers.",
  "every dataset (for the examples left: with distinct labels), random choice, initial ruleset, dl_allowance, limits and hyperparameters",
  "all runs of the growing phase",
  (R,"RIPPER._grow_ruleset","_r_theory_bits","_exceptions_bits"),(F,"stop_early","rm_covered"))
p("What fitting RIPPER with cn_optimize=False can raise",
  "On valid data, with an initial model (if any) that mentions no other columns than those of the data and not the class, RIPPER.fit(..., cn_optimize=False) raises nothing but a ZeroDivisionError, a ValueError or an UnboundLocalError (for each there are data that make it). With max_rules=1 and no initial model it raises nothing at all, if every column has two different values that occur in both classes.",
  "every valid dataset, generator, hyperparameters with a prune_size that leaves something to prune on and positive alpha, initial model, rounding",
  "no test shows that no other data make fit raise something else",
  (R,"RIPPER.fit","RIPPER._grow_ruleset","RIPPER._optimize_ruleset","RIPPER._cover_remaining_positives","_exceptions_bits","_r_theory_bits"),(F,"prune_rule","_accuracy"))
p("What alpha and n_discretize_bins influence",
  "alpha influences nothing but the smoothed frequencies: fit with another positive alpha raises the same exception, or learns the same rules with the same counts, features and bins, leaves the same state of the generator and smooths the same counts with the other alpha; recalibrate_proba likewise; predict answers the same (or raises the same). The larger alpha, the nearer to 1/2 is each smoothed frequency, on the same side of it. n_discretize_bins influences nothing if no numeric column has more different values than bins, under either number: fit then does the same, and leaves the same object but for the parameter.",
  "both classes and cn_optimize settings, every data, generator, hyperparameters, pair of positive alphas, pair of numbers of bins (None included), initial model, arithmetic",
  "a test compares two values of the parameter on one dataset",
  (F,"recalibrate_proba","additive_smoothed_rates"),(I,"IREP.fit"),(R,"RIPPER.fit"),(D,"find_continuous_feats"))
p("Limits out of reach have no effect",
  "The early-stopping parameters do nothing unless they are within reach: max_rules of at least the rules of the initial model plus twice the rows (IREP: plus the positive rows), max_rule_conds of at least the number of columns with the class column, min_rule_samples and min_ruleset_samples of at most 1. fit with other values out of reach, or with None, raises the same exception or learns the same rules with the same frequencies and leaves the same state of the generator. A minimum of one sample per rule needs a max_rule_conds out of reach for that: where max_rule_conds stops a growing rule, its last condition is popped if and only if min_rule_samples is set.",
  "both classes, with cn_optimize=True every valid data without repeated row labels, with cn_optimize=False any data; lawful generator, every hyperparameters, pair of limits differing only out of reach, initial model, lawful arithmetic",
  "a test compares two values of a limit on one dataset",
  (F,"stop_early","grow_rule","grow_rule_cn"),(I,"IREP.fit","_grow_ruleset","_grow_ruleset_cn"),(R,"RIPPER.fit","_grow_ruleset","_grow_ruleset_cn","_optimize_ruleset","_optimize_ruleset_cn","_cover_remaining_positives","_cover_remaining_positives_cn"))
p("Scores of a test set lie between those of its parts",
  "Splitting test data with distinct row labels, and its class labels, in two: predict answers both parts if it answers the whole, and whatever function is scored, it gets for the whole the labels and predictions it gets for the one part followed by those for the other. So the accuracy of the whole is the mean of those of the parts weighted by their sizes, and precision and recall lie between those of the parts (or equal the one that is defined; undefined if both are). F1 lies between those of the parts if both are defined; if one part has no true positive, the F1 of the whole is at most that of the other part.",
  "every classifier with a positive class, test data with distinct row labels, split into two non-empty parts, class labels, lists of labels and predictions",
  "a test scores one split of one test set",
  (A,"score"),(F,"score_accuracy","score_precision","score_recall","score_f1"))
p("What editing one rule changes",
  "On data with distinct row labels and the tested columns: removing a rule changes the predictions of exactly the rows of which it is the only reason (give_reasons), from True to False; each row keeps its other reasons, in order. So a rule can be removed without changing any prediction on the data if and only if every row it covers is covered by a rule at another position. Adding a rule changes the predictions of exactly the rows without a reason that it covers, from False to True, and it becomes the last reason of every row it covers. With repeated row labels a removed rule can matter without having been a reason (refuted).",
  "every ruleset, data with the tested columns and distinct row labels, position of a rule, new rule", "all rulesets and data",
  (B,"Ruleset.predict","Ruleset.remove","Ruleset.add"),(A,"remove_rule_at","add_rule"))
# exact statements (what the theorems prove of the code, corner cases included)
REV={
 "C103":("RIPPER computes description lengths in floating point. For at most m rules, every length it computes on the training data is within a stated error of the true number of bits; with doubles that error is below 0.00001 bit for 100 rules, 10 000 possible conditions and ten million rows (below 0.0001 bit with cn_optimize=False, where a row counts once for each rule that covers it). So every decision RIPPER makes by description length is right up to a small multiple of that error: simplification drops a rule only if that raises the length by less than twice the error and keeps one only if it adds at most twice the error; in an optimisation pass each rule is exchanged for an alternative of least length up to twice the error; and rules are added only while the length is at most dl_allowance, and three times the error, above the least one seen, and not stopped for that reason unless it exceeds dl_allowance less three times the error.",
  "both settings of cn_optimize, every rounding of at least stated precision (doubles included), training set (with cn_optimize=True: with distinct row labels), ruleset, hyperparameters, generator"),
"C01":("Ruleset.predict(X) answers True for a row exactly when some row of X carrying the same index label meets every condition (feature == value) of some rule; with distinct index labels, exactly when the row itself does. It raises KeyError exactly when no rule is empty and X lacks a tested column.","every ruleset, every frame X, any index labels, every row"),
"C02":("The prediction made for a row depends on nothing but the cells of the rows of the batch carrying the same index label; with distinct labels, on its own cells only. (With repeated labels a row inherits its namesakes' predictions.)","every ruleset, every two batches with the tested columns, every index labelling"),
"C04":("With give_reasons=True the predictions are those of predict, and the reasons of a row are the rules that fire on exactly one of the rows carrying its index label, in ruleset order; with distinct labels these are exactly the rules that cover the row, and the list is empty iff the prediction is False.","every ruleset, every frame with the tested columns, every row"),
"C08":("Two rulesets compare equal with == iff they have the same rules up to order and to how they print; equal rulesets make the same predictions on every frame, provided that among their conditions printing alike implies testing the same column for the same value (as for text names without '=' and text values). Without the proviso it is false: the number 1 and the text '1', or a name containing '=', print alike.","every two rulesets, every frame"),
"C09":("Rules compare equal iff they have equally many conditions and the same set of printed conditions; they have the same hash key iff they have the same printed conditions up to order. So equal keys imply equality, and equal rules hash alike if one of them repeats no condition. (False for rules with repeated conditions: [a,a,b] == [a,b,b].)","every two rules"),
"C11":("On non-empty data, predict of a model whose stored features include those its rules test (every fitted or initialised model) raises IndexError iff a stored feature is missing from X, else ValueError iff a binned column already holds text other than its labels, else answers once per row; it always answers on valid data it was fitted on. Edits do not update the stored features: after add_rule, data lacking only the new rule's feature gives KeyError, and after remove_rule predict may ask for features no rule tests.","every model fitted by IREP or RIPPER with any cn_optimize, or initialised; every X; every edit"),
"C15":("ruleset_fromstr(str(rs)) reproduces rs, rule by rule and condition by condition, iff rs has no empty rule and all names and values are text free of white space, unprintable characters, quotes, commas, brackets, backslashes, '^', '=' and 'V'.","every ruleset"),
"C18":("CatNap.ruleset_covers(ruleset, subset) is the set of labels in subset whose row is covered by some rule, except that a ruleset with an empty rule together with an empty subset gives all labels.","every frame with distinct labels, every ruleset over its non-class columns, every subset of its labels"),
"C22":("Every rule of a model fitted by IREP, or by RIPPER without optimisation passes (k <= 0), is one of the initial model's or has at most max_rule_conds conditions. (RIPPER's optimisation passes ignore the limit: a witness is given.)","every dataset, random choice, limit >= 0 and initial model"),
"C23":("A rule grown from the empty rule under min_rule_samples = m has no condition, or covers no growing negative, or covers at least m growing examples. (A rule that covers no negative is accepted however few examples it covers.)","every dataset with distinct labels and limit m"),
"C27":("IREP with prune_size None or 0 and without max_rules, max_total_conds, min_ruleset_samples and an initial model, fitted on valid data with distinct row labels in which nothing prints like something else: predict on that data answers True for every positive training row, numbers discretised or not. (False for a column mixing the number 1 and the text '1'.)","every training data, dtype and shuffle"),
"C32":("No two rules of a fitted model print the same conditions up to order; de-duplication keeps, in order, exactly the rules without an earlier rule printing the same conditions, and changes no prediction provided that conditions printing alike test the same column for the same value.","every list of rules; every fit of IREP and RIPPER"),
"C35":("On valid data (any values, dtypes, shuffles, limits), with alpha > 0 and cn_optimize=True: IREP.fit raises nothing for prune_size None, 0 or any value that leaves something to prune on (without rounding, 0 < prune_size <= 1; with doubles, see C81), with any initial model over the data's columns; RIPPER.fit raises nothing for a prune_size that leaves something to prune on, on distinct row labels without an initial model (or with one whose rules test distinct non-constant columns). RIPPER with prune_size None raises TypeError as soon as it tries to grow a rule; prune_size 0 can raise AttributeError and an initial rule on a constant column ZeroDivisionError.","every labelled frame, seed and hyperparameter setting in range"),
"C36":("With random_state set, the fitted object depends only on the data, the initial model, the hyperparameters and the seed: not on the state of the global random generator, nor on anything the object learned or was told before. (With cn_optimize=False: and on the order in which sets of values are enumerated, C75.)","every dataset, every prior history of generator and object, IREP and RIPPER, any cn_optimize"),
"C38":("After a fit with alpha>0 (or recalibrate_proba on data with distinct labels), every row of predict_proba has a negative and a positive entry strictly between 0 and 1 summing to 1; rows predicted positive get the mean, over exactly their covering rules, of the smoothed class frequencies of the training (calibration) rows each rule covers; rows predicted negative all get one and the same pair, which is the smoothed class frequency of the rows predicted negative after recalibration, after RIPPER.fit, and after IREP.fit without max_total_conds on data in which nothing prints like something else. (IREP calibrates before trimming, so with max_total_conds the pair is stale.) Covering is meant on the raw data: a condition on a binned column counts the rows whose number lies in its range; with recalibrate_proba(discretize=False), those whose value equals its label. give_reasons=True adds the reasons predict gives.","every dataset used to calibrate, every ruleset, every X with distinct labels, alpha>0"),
"C40":("min_samples and require_min_samples have no effect on recalibrate_proba: its result is the same for all their values, so it replaces the probabilities even if every rule lacks min_samples samples, against its documentation.","every model, calibration set, min_samples and require_min_samples"),
"C41":("After every successful fit, predict_proba answers exactly when predict does, on any data, and raises the same otherwise; so for every model calibrated after its last edit. (After init_ruleset it raises AttributeError on all data on which predict answers, and after add_rule on data the new rule covers.)","every model fitted by IREP or RIPPER with any cn_optimize, every data and names; every init_ruleset model"),
"C45":("Ruleset.num_covered(X) counts each row once per rule that covers it (or every row once if some rule is empty), so without empty rules it is the number of covered rows iff no row is covered by two rules.","every ruleset and frame with the tested columns"),
"C48":("The bins fitted for a column follow each other without overlapping, are at least two, the outer ones reaching to infinity, and every number lies in exactly one of them unless it falls into an interior bin that had no training row, which is dropped, in which case it lies in none. transform replaces a number by the label of the range it lies in (missing if none), keeps missing cells missing, and never gives a larger number an earlier label.","every training column, bin count and number"),
"C49":("With the pandas engine (the classifiers') a number equal to a bin's upper bound is placed in that bin. With the numpy engine it is placed in the next bin, whose range excludes it, for every threshold list; below and above all thresholds numbers get the first and last bin, and missing values the last bin.","every fitted column and every increasing threshold list"),
"C50":("Parsing the text label of a bin gives back the interval it was printed from, open ends and negative or exponent-notation bounds included. (Labels without spaces around the dash, as written by older versions, with a negative upper bound raise UnboundLocalError.)","every interval with float ends"),
"C51":("transform keeps columns and row labels and changes no cell of a column it was not fitted on or that is already text; transforming its result again changes nothing, unless a fitted column then holds a missing value, in which case, and only then, it is a ValueError.","every frame and binner"),
"C52":("The constructor accepts exactly the documented names; after any history of set_params calls each hyperparameter has the value last written; get_params returns all of them except min_rule_samples; writing them back changes nothing; rebuilding from get_params (cloning) always succeeds and keeps every hyperparameter except that min_rule_samples becomes None and a false prune_size 0, so the clone is the same iff min_rule_samples was None and prune_size not None or empty; fit keywords set hyperparameters for good except min_rule_samples, which is ignored.","every hyperparameter assignment, every finite sequence of set_params"),
"C53":("Each training row goes to exactly one of positives and negatives. Without a named positive class: if all labels are 0/False or 1/True it is 1; if all labels are alike and not 0 it is that label; exactly two classes, one text and one not, are a TypeError; anything else is a NameError.","every label column"),
"C54":("A model given by init_ruleset to a new classifier answers its first predict, on non-empty data with its features, iff every condition value is text that is 'x - y' with a readable number x or has at most one dash beyond its first character; otherwise it raises AttributeError, UnboundLocalError or ValueError. Its numeric-range conditions never match raw numbers: if every rule has a text condition on a column of numbers, the answer is False on every row.","every ruleset, every X"),
"C57":("On non-empty data with distinct row labels and the stored features, rule_stats gives one line per rule, in order: its number, its text, how many rows of the discretised data it fires on, that number as a fraction of all rows and, given y, its precision, recall and F1 as a classifier of its own; y of another length is a ValueError.","every model, X and y"),
"C63":("Any series of predict and predict_proba (with or without reasons), score and rule_stats calls, answered or raising, leaves rules, bins, class names, features and hyperparameters of a fitted classifier as they were, and every query then answers or raises as it would have before. (predict_proba does overwrite the attribute classes_, which fit leaves as [0, 1], by the class names.) On a classifier without a bin transformer the calls can at most create an empty one: answers stay, but a query that raised may answer when repeated.","every classifier state and every finite series of queries on any data"),
"C39":("recalibrate_proba changes no rule and no prediction, whether it returns or raises: after any history of queries and recalibrations, predict of a fitted classifier answers or raises as right after fit. Each rule's class counts sum to the number of calibration rows it covers, and the uncovered counts to the number of calibration rows predicted negative.","every fitted classifier, every finite history of queries and recalibrations; every ruleset, labelled calibration frame with distinct labels and alpha"),
}
TITLE={
"C02":"A prediction depends on the rows with its label only",
"C08":"Equal rulesets predict alike unless different conditions print alike",
"C15":"Which models printing and parsing gives back",
"C22":"max_rule_conds bounds the rules IREP learns and RIPPER grows",
"C23":"What min_rule_samples guarantees",
"C35":"Which exceptions training can raise",
"C40":"min_samples and require_min_samples have no effect on recalibration",
"C41":"When predict_proba works",
"C45":"What num_covered counts",
"C49":"Upper bounds of bins: included by the pandas engine, excluded by the numpy engine",
"C51":"When discretisation is idempotent",
"C52":"Hyperparameters: constructor, set_params, get_params, clone",
"C54":"When init_ruleset models are usable on raw data",
}
for q in props:
    if q["id"] in REV:
        q["statement"],q["quantifier"]=REV[q["id"]]
    q["title"]=TITLE.get(q["id"],q["title"])
if __name__=="__main__":
    here=os.path.join(os.path.dirname(os.path.abspath(__file__)),"..","properties.jsonl")
    with open(here,"w") as f:
        for q in props: f.write(json.dumps(q,ensure_ascii=False)+"\n")
    print(len(props))
