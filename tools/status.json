{
 "C01": [
  "proved",
  "Any index labels; the distinct-label case is C01_predict_is_dnf."
 ],
 "C02": [
  "proved",
  "Any index labels, with a concrete batch with a repeated label showing the corner case."
 ],
 "C04": [
  "proved",
  "Any index labels, with a concrete corner case."
 ],
 "C08": [
  "proved",
  "Exact characterisation of ==; the two cases outside the proviso are refuted by witnesses."
 ],
 "C09": [
  "proved",
  "Exact characterisation, with a witness for repeated conditions."
 ],
 "C11": [
  "proved",
  "Exact outcome for every fitted or initialised model; the deviations after edits are proved too."
 ],
 "C15": [
  "proved",
  "An equivalence: round trip iff safe."
 ],
 "C16": [
  "proved",
  ""
 ],
 "C17": [
  "proved",
  ""
 ],
 "C18": [
  "proved",
  "Exact, corner case included."
 ],
 "C19": [
  "proved",
  ""
 ],
 "C20": [
  "proved",
  ""
 ],
 "C21": [
  "proved",
  ""
 ],
 "C22": [
  "proved",
  "IREP (any fit) and RIPPER with k <= 0; the excess with optimisation passes is a kernel-checked witness."
 ],
 "C23": [
  "proved",
  "Exact disjunction; witness for pure rules."
 ],
 "C24": [
  "proved",
  ""
 ],
 "C25": [
  "proved",
  ""
 ],
 "C26": [
  "proved",
  "Every dataset, generator, limits, any prune_size."
 ],
 "C27": [
  "proved",
  "API level and labelled-frame level; witness for mixed-type columns."
 ],
 "C28": [
  "proved",
  "Per iteration and for every rule of a fitted model."
 ],
 "C29": [
  "proved",
  "IREP and RIPPER."
 ],
 "C30": [
  "proved",
  "IREP and RIPPER."
 ],
 "C31": [
  "proved",
  "IREP and RIPPER."
 ],
 "C32": [
  "proved",
  "IREP and RIPPER; exact de-duplication; number-versus-text corner refuted."
 ],
 "C33": [
  "proved",
  ""
 ],
 "C34": [
  "proved",
  "Every dataset, generator, prune_size, k, dl_allowance, limits, initial model."
 ],
 "C35": [
  "proved",
  "IREP and RIPPER with cn_optimize=True, API level; the failing settings are proved (prune_size None) or witnessed. cn_optimize=False is not part of this claim."
 ],
 "C36": [
  "proved",
  "IREP and RIPPER, API level, any cn_optimize; the generator is any one whose seed call with a number resets it."
 ],
 "C37": [
  "proved",
  ""
 ],
 "C38": [
  "proved",
  "Recalibration, IREP and RIPPER; corners (repeated labels, trimmed IREP) refuted by witnesses."
 ],
 "C39": [
  "proved",
  "With the partial effect of a failing call (alpha = 0) as a witness."
 ],
 "C40": [
  "proved",
  "The documented protection does not exist: proved that the parameters have no effect."
 ],
 "C41": [
  "proved",
  "Fitted models; universal refutation for init_ruleset models, witness for add_rule."
 ],
 "C42": [
  "proved",
  ""
 ],
 "C43": [
  "proved",
  ""
 ],
 "C44": [
  "proved",
  ""
 ],
 "C45": [
  "proved",
  "Exact count; witness of an overlap."
 ],
 "C46": [
  "proved",
  "In bits (real logarithms), through a bridge theorem."
 ],
 "C47": [
  "proved",
  "The original rule is compared at the description length of the simplified ruleset, as the code does."
 ],
 "C48": [
  "proved",
  "Bins as fitted by the pandas engine; float printing and pandas' choice of break points are parameters with stated laws (PyFloat.Lawful, PandasCut.Lawful), witnessed by concrete instances."
 ],
 "C49": [
  "proved",
  "Both engines; the numpy deviation is proved for every threshold list."
 ],
 "C50": [
  "proved",
  "Under PyFloat.Lawful."
 ],
 "C51": [
  "proved",
  "Exact; both corner cases proved."
 ],
 "C52": [
  "proved",
  "Exact, histories included; witness that a clone can learn a different model."
 ],
 "C53": [
  "proved",
  "Exact four-way case split and the partition."
 ],
 "C54": [
  "proved",
  "Exact condition for answering; universal statement that ranges never match raw numbers."
 ],
 "C55": [
  "proved",
  ""
 ],
 "C56": [
  "proved",
  ""
 ],
 "C57": [
  "proved",
  "Per rule, exact; the examples of n_examples are C88."
 ],
 "C58": [
  "proved",
  ""
 ],
 "C59": [
  "proved",
  ""
 ],
 "C60": [
  "proved",
  ""
 ],
 "C61": [
  "proved",
  ""
 ],
 "C62": [
  "proved",
  "Exact final states for both algorithms, any cn_optimize."
 ],
 "C63": [
  "proved",
  "All finite histories of queries."
 ],
 "C64": [
  "proved",
  "Both algorithms, any cn_optimize."
 ],
 "C65": [
  "proved",
  "List, Series of the right and of the wrong length."
 ],
 "C66": [
  "proved",
  "Both directions."
 ],
 "C67": [
  "proved",
  "The upper bound on the number of bins assumes pandas returns at most n+1 break points for n quantiles."
 ],
 "C68": [
  "proved",
  "Any scoring function."
 ],
 "C69": [
  "proved",
  "Every shuffle, API level; missing-value corner refuted by a witness."
 ],
 "C70": [
  "proved",
  "Both algorithms; set iteration order is an arbitrary oracle."
 ],
 "C71": [
  "proved",
  "Refinement for IREP under distinct labels; the general claim is refuted by witnesses."
 ],
 "C72": [
  "proved",
  ""
 ],
 "C73": [
  "proved",
  ""
 ],
 "C74": [
  "proved",
  "IREP: total; RIPPER: refuted by three witnesses, and the ZeroDivisionError exactly located."
 ],
 "C75": [
  "proved",
  "The true part is C36 (any cn_optimize, one enumeration order); refuted across enumeration orders by a kernel-checked witness."
 ],
 "C76": [
  "proved",
  "The table of refusals holds for both classes and any cn_optimize, and for recalibrate_proba; completeness (no other exception) is proved for recalibrate_proba, for IREP.fit with either cn_optimize and for RIPPER.fit with cn_optimize=True. (RIPPER with cn_optimize=False raises on some valid data: C74.)"
 ],
 "C77": [
  "proved",
  "Answers of the foreign model are one-dimensional arrays or lists; its exceptions are among those of the model. C77_refuted_one_answer: one-row arrays. The attribute base_model is not modelled; the docstring promises a pair (interpreter, score) where the code returns the ruleset."
 ],
 "C78": [
  "proved",
  "Rule, Ruleset and classifier objects in a heap (Verif/Heap.lean): which objects each method copies, shares, creates and changes in place. Values inside fit are those of the value-level model (Method.fit); C78_fit_as_value and its companions tie the two models together. C78_refuted_failed_fit is the parenthesis of the statement. A list passed to Ruleset(rules) is taken not to be kept by the caller; the Rule objects a training run makes and discards are not modelled."
 ],
 "C79": [
  "proved",
  "C79_refuted_probabilities is the parenthesis of the statement: predict_proba does change."
 ],
 "C80": [
  "proved",
  "Stated for calls that succeed; C74 says which exceptions they can raise instead."
 ],
 "C81": [
  "proved",
  "The laws (Arith.Lawful) are proved of every Rounding; Demo.doubles (53 significant bits, rounding to nearest) is one. Overflow and subnormal results are outside the format modelled. Probabilities and scores are exact rationals throughout."
 ],
 "C82": [
  "proved",
  "Both implementations of the passes and of fit."
 ],
 "C83": [
  "proved",
  "print's own final line break is left out."
 ],
 "C84": [
  "proved",
  "np.quantile, np.linspace and the rounding are arbitrary functions with monotonicity and end-point laws; NumpyCalc.exact_lawful shows the exact functions meet them."
 ],
 "C85": [
  "proved",
  "At the training level with any initial model (C85_conditions_pull_weight), without one (C85_no_idle_conditions) and for fit on raw tables (C85_fit_no_idle_conditions); C85_refuted_redundancy shows the limits of the claim."
 ],
 "C86": [
  "proved",
  "At the training level (C86_unpruned_deterministic) and for fit (C86_fit_unpruned), both values of cn_optimize; C86_refuted_pruned shows the hypothesis is needed."
 ],
 "C87": [
  "proved",
  "fit for shuffles that do not look at labels (C87_labels_irrelevant), unpruned for any shuffles, with the index as sets of possible outcomes; answers and recalibration unconditionally; repeated labels refuted."
 ],
 "C88": [
  "proved",
  "For data with distinct labels; sampling is any function returning n different rows of those given (PySample.Lawful)."
 ],
 "C89": [
  "proved",
  "Both classifiers, both values of cn_optimize, by erasing the log of the logged programs; the trimmed-to-nothing case is refuted by a witness."
 ],
 "C90": [
  "proved",
  "Frames as objects at addresses with in-place operations; the code after preprocessing only reads frames and is taken from the value model."
 ],
 "C91": [
  "proved",
  "The shuffles' parts are existentially quantified (any permutation split in two); the growing itself is described by C22/C23/C86, the cut by CutBy/BestCut."
 ],
 "C92": [
  "proved",
  "Equality of the whole outcome (object, generator state, exception). For feature_names see C66; for Series with other row labels C65, C87."
 ],
 "C93": [
  "proved",
  "Whole fits for IREP; for RIPPER the growing phases (index and DataFrames), and a kernel-checked counterexample for whole fits."
 ],
 "C94": [
  "proved",
  "About completed fits and exceptions; what a failed fit leaves behind does depend on the old state (C62)."
 ],
 "C95": [
  "proved",
  "Whole fits of all four methods and all queries except rule_stats (which prints names); feature_names is not given. Counterexample for colliding texts."
 ],
 "C96": [
  "proved",
  "Calibration, predict_proba and the four trainings with the arithmetic of probabilities as a parameter; with exact arithmetic they are the functions of C38 (C96_exact). Overflow and subnormal numbers are excluded by hypotheses. Together with C38 this gives the meaning of the rounded probabilities."
 ],
 "C97": [
  "proved",
  "The training programs with their print calls (which evaluate their arguments and may raise), related to the quiet programs call by call, for both values of cn_optimize. The wording of the lines is not modelled, nor are the print calls of discretisation and of out_pretty's layout."
 ],
 "C98": [
  "proved",
  "Growing on the data with and without the column is shown equal step by step: candidates on a constant column have gain at most 0, those on a repeated one at most that of an earlier candidate. cn_optimize=False: for every lawful enumeration of sets. Through fit, the column (and the one it repeats) must be one that discretisation leaves alone. Refuted for RIPPER by a dataset of six rows."
 ],
 "C99": [
  "proved",
  "The loop is shown to commute with putting rules in front of its state (or to stop earlier, with limits); removing duplicates and trimming are shown stable under repetition. Refuted for RIPPER by a dataset of ten rows."
 ],
 "C100": [
  "proved",
  "Refuted without the criterion: inconsistent data, and default IREP and RIPPER on consistent data."
 ],
 "C101": [
  "proved",
  "Refuted without the condition on first appearances, and with pruning. The API theorems assume pandas chooses break points by the values of a column, not their order (OrderFree)."
 ],
 "C102": [
  "proved",
  "Parts have the dtypes of the whole (as slices of a DataFrame do; a column of dtype object whose values are converted by infer_objects only in a part is outside the model). Refuted for repeated row labels."
 ],
 "C103": [
  "proved",
  "The error of the logarithm of an integer is a hypothesis (FineFor.log_int); that of a fraction follows from the model of rounding. With cn_optimize=False the length counts a row once for each rule that covers it, as the code does, and the error bound allows for that."
 ],
 "C104": [
  "proved",
  "The positive class is given explicitly. For cn_optimize=False the set operations must be lawful. The hypothesis on the initial model is needed (C104_refuted_initial_model_on_class)."
 ],
 "C105": [
  "proved",
  "For cn_optimize=False the index labels must be distinct, and for RIPPER the product of the numbers of rules and rows is bounded by 4*10^15. Description lengths are the subject of C103."
 ],
 "C106": [
  "proved",
  "Lengths in bits, without rounding; with rounding: C103."
 ],
 "C107": [
  "proved",
  "The three exceptions are witnessed by C74_refuted_ripper_plain. In the API theorem on one rule, the shared values are those of the data after binning."
 ],
 "C108": [
  "proved",
  "Smoothed frequencies as exact rationals; about recalibration for objects with all attributes fit sets."
 ],
 "C109": [
  "proved",
  "max_total_conds is left alone; the condition on min_rule_samples is needed (C109_refuted_min_one)."
 ],
 "C110": [
  "proved",
  "Scores as exact rationals."
 ],
 "C111": [
  "proved",
  "remove_rule_at and add_rule; by-rule removal is removal at the first equal rule (C13)."
 ]
}