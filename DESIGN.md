# Formal model of imoscovitz/wittgenstein in Lean 4 — design

Source modelled: `/repo/wittgenstein/*.py` (the `build/` copies and the tests are not modelled).
Lean project: `/verif/lean`, modules under `Verif/`: the model (`Verif/*.lean`), the vocabulary of the property
statements (`Verif/Spec.lean` and the `Spec` namespaces at the head of the property files), lemmas
(`Verif/Lemmas/*.lean`) and the property theorems with their concrete cases (`Verif/Props/*.lean`).

## 1. Trusted base

* Lean 4.33.0's kernel, and the axioms `propext`, `Classical.choice`, `Quot.sound`. `AXIOMS.txt` (written by
  `tools/axioms.py` from Lean's own report) lists the axioms of every theorem in `MANIFEST.json`; there are no others.
* The reading of the Python source into Lean definitions (each definition cites file and lines; simplifications are said
  in the comment and collected below).
* The laws assumed of what is not modelled. They are hypotheses of the theorems that need them, never axioms, and each is
  shown to be satisfiable by a concrete instance:
  `PyRandom.Lawful` (a shuffle permutes its list), `PyRandom.SeedResets` (seeding forgets the generator's past; C36 only),
  `PyFloat.Lawful` (`float(str(x)) == x`, and no space, `<`, `>` in a printed float), `PandasCut.Lawful` (`qcut`
  break points increase and are floats), `SetOps.Lawful` (what a set intersection contains; not its order),
  `NumpyCalc.Lawful` (C84), `PyRandom.Positional` (a shuffle does not look at the labels; C87), `PySample.Lawful`/`Seeded` (`DataFrame.sample`
  returns different rows of the frame; with a seed always the same; C88).
* `decide +kernel` is used only on closed statements (counter-examples and the concrete cases beside the theorems); it is
  evaluation by the kernel itself.

## 2. What is modelled and how

| Python notion | Model | Simplification |
|---|---|---|
| `str` | `PStr = List Char` | code points; white space and printability of `strip`/`repr`: ASCII and U+0080–U+00A0 exactly, beyond that only white space counts as unprintable |
| cell / condition value | `Val`: text, number (value + printed text), missing | `int`, `bool`, `float` are `num` (exact rational, printed form); NaN/None/NaT are `nan` (never equal to anything) |
| feature name | `Feat`: text or integer column label | columns of a frame are distinct |
| index label | `Int` | any hashable label; only equality is used. Labels may repeat |
| DataFrame | `Frame`: column names + rows (label, cell function); `TFrame` adds the dtype kind of each column | dtype kinds are those after `infer_objects` |
| Python `set` of labels | `List Int`, duplicate-free where built by `set(..)` | its iteration order matters only before a shuffle, and is part of the shuffle |
| set of cell values (`cn_optimize=False`) | an arbitrary `SetOps` | order and, of equal elements, the representative are arbitrary |
| float arithmetic of training (gains, prune metrics, description lengths, split sizes) | a parameter `Arith`; theorems with `[Arith]` hold for any, those with `[Arith.Lawful]` for any that obeys the laws listed there. `Arith.exact`: exact rationals, logarithms carried as `2^gain`, `2^(2*bits)` and related to the real formulas (C59, Props/Bits). `Arith.rounded r`: every operation rounded (C81), for any monotone rounding of relative error at most 1/4, doubles among them; it is proved lawful | theorems on description lengths in bits (C46, C47, C60, C61, C80, C106) are about `Arith.exact`; C103 has the same decisions, up to a stated error, for `Arith.rounded`; overflow and subnormal numbers |
| float arithmetic of probabilities and scores | exact rationals `Rat`; C96: calibration and `predict_proba` with every operation rounded and any order of summation | rounding of scores (one or two divisions); overflow and subnormal numbers |
| exceptions | `Except PyErr` | one constructor per exception class; no messages |
| methods that mutate an object | a state monad with exceptions (`EStateM`), keeping the changes made before a raise | aliasing is the subject of a second model: |
| DataFrame objects changed in place | `Frames` (frames by address), tied to the value model by C90 | columns are not shared between frames; `y` is a value; code after preprocessing only reads |
| object identity, references, `deepcopy` | `Heap` (Rule, Ruleset and classifier objects by address), tied to the value model by the `as_value` theorems of C78 | conditions, bin transformers and hyperparameters are values; lists of rules are not shared |
| `while` loops | fuel-indexed recursion with an explicit `diverged` outcome; termination theorems (C20, C26, C34, C72) give a bound from which on the result no longer depends on the fuel and is not `diverged` | |
| `random.seed/shuffle` | `PyRandom`: any state type, seeding function and shuffle | the state of the generator after a failed fit is not modelled |
| hash of `Rule`, `Cond` | equality of what is hashed | hash collisions ignored |
| pandas `qcut`/`cut` choosing thresholds | `PandasCut`: any break points | |

| File in /repo/wittgenstein | Modelled in | Not modelled |
|---|---|---|
| base.py | Value, Rules, Text, Edit, Show (`out_pretty`, `truncstr`), Catnap (possible conditions), Plain (`_update_possible_conds`) | `Ruleset.copy` (always NameError), `rs_fromstr` of a list |
| base_functions.py | Train, Catnap (`rm_*`), Random, Proba, Scores (`argmin`, `nCr`) | `head`-style truncation, printing |
| catnap.py | Catnap | `to_df` (always NameError) |
| irep.py | Irep, Plain, Classifier (outer part of `fit`), Verbose, VerbosePlain | - |
| ripper.py | Ripper, Plain, Classifier, Params, Verbose, VerbosePlain | - |
| abstract_ruleset_classifier.py | Classifier, Params, Examples (`rule_stats(n_examples=..)`; `DataFrame.sample` is a parameter) | feature selection by `train_df` names only |
| preprocess.py | Classifier | unnamed Series `y`; numpy/list inputs are frames with integer columns |
| discretize.py | Discretize, NumpyBins | pandas break points and numpy quantiles are parameters; `_max_dec_precision`, `verbosity` output |
| check.py / utils.py | Scores, Rules (`remove_duplicates`), Warn | deprecation warnings, warnings of `find_floor_ceil`, texts of warnings, printing |
| interpret.py | Interpret | the foreign model is a parameter (a function of X that may raise, and the text of its type); `base_model`, `_score_model` |

Further simplifications, each in the comment of the definition it concerns: the calibration attributes of an initial model's rules are
dropped by `fit`; None sorts like NaN among class labels; a pruned rule None raises AttributeError at the point of
choice; `VALID_HYPERPARAMETERS` is never reassigned; `float("nan")` counts as unreadable; a `bin_transformer_` of an older
version (a dict) is the transformer it is converted to.

## 3. Plan per property

The statements are in `properties.jsonl`. Where a property a user would expect is false of the code, the statement says what is
true, and a theorem named `Cnn_refuted_…` proves the failure on a concrete input; the rest is proved for all inputs.

* C01–C07, C12, C45 (predictions; Props/Predict, Props/Queries): `Cond/Rule/Ruleset.covers`, `predict` as label-based
  pandas code; equal to "some rule has all its conditions met", for any labels.
* C08–C10, C32 (equality; Props/Equality): exact characterisation of `==` and hash keys by printed text.
* C11, C41, C54, C62–C66 (life of a classifier; Props/Classifier, Api, Fit, FitApi, FitTrain, Columns): the classifier as a state machine
  (`Method` ranges over IREP and RIPPER with either value of `cn_optimize`);
  invariants of every reachable state, exact outcomes of `predict` and `predict_proba`.
* C13–C14 (editing; Props/Editing): every history of edits refines a plain list machine; failed edits change nothing.
* C15–C16 (text; Props/Text): exact models of `split`, `replace`, `strip` and `repr`; induction on the text.
* C17–C19 (coverage index; Props/Index, Grow): refinement of label-set coverage to frame coverage; loop equivalence.
* C20–C25, C59, C69 (growing and pruning; Props/Grow, Gain, Separate): loop invariants; sign analysis of the gain on exact
  rationals; an averaging argument for C69.
* C26–C35, C46–C47, C60–C61 (IREP and RIPPER; Props/Irep, Ripper, Optimize, Allowance): whole-fit models; invariants of every stage; crash-freedom.
* C36–C37 (randomness): for every generator; independence of its prior state.
* C38–C41 (probabilities; Props/Proba): exact rational arithmetic.
* C42–C44, C68 (scores; Props/Scores, ScoreApi): closed forms; `score` in terms of `predict`.
* C48–C51, C67 (discretisation; Props/Discretize, Bins): bins from arbitrary increasing break points.
* C52 (Props/Params), C53, C55–C58: direct models.
* C70–C75 (`cn_optimize=False`; Props/Plain, PlainApi): the second implementation of training, modelled separately over DataFrames; a
  simulation for the agreement with the first.
* C76 (what `fit` refuses; Props/Inputs, Props/InputsAll): the table of refusals as an inductive specification, proved sound and complete.
* C77 (interpret.py; Props/Interpret): reduction to `fit` and `score`, so that the theorems about these carry over; the predictions used are
  specified by an inductive relation.

* C81 (rounding; Rounding, Props/Rounding, RoundingFit): laws of the training arithmetic from monotonicity and a bound on the relative error; a
  lower bound on differences of logarithms of fractions with small denominators gives the sharpness C69 needs.
* C82 (optimisation passes; Props/Passes): a pass that changes a rule puts in one that prints like none of the rules it was given, hence comparing
  printed rulesets detects every change; with a seed a pass is a function of the rules.
* C83 (the printed model; Show, Props/Show): the four replacements of `out_pretty` act character by character, so its text is the join of the rules'
  texts; reading back is reduced to C15, counting `V`s, `^`s and backslashes.
* C84 (numpy engine of the discretiser; NumpyBins, Props/NumpyBins): the thresholds of `_numpy_cut` from arbitrary monotone quantiles, spacing and
  rounding; `digitize` counts thresholds, which in a nondecreasing list locates the bin.
* C85 (Lemmas/Weight, Props/Weight): a predicate kept by useful growth steps on training positives/negatives and by cutting the end holds of all
  rules through every stage (induction over the growing and optimisation loops); instantiated with "beginning of an initial rule, then conditions that
  pull their weight", for all four training procedures, and carried to raw tables by the meaning of bins (C64).
* C86 (Lemmas/Unpruned, Props/Unpruned): without pruning every split keeps all examples, so the growing loops under two generators are related step by
  step by "same rules, permuted examples"; growing a rule does not depend on the order of its examples.
* C87 (Lemmas/Relabel*, Props/Relabel): training commutes with an injective renaming of labels if shuffling does; two distinct labellings of the same
  rows are renamings of each other, and any lawful generator renamed is a lawful generator.
* C88 (Examples, Props/Examples): the sampler is a parameter; the loop over the rules row by row.
* C89 (Warn, Props/Warn): `fit` and `predict` with a log of warnings; the programs with the log erased are those of the other properties.
* C90 (Frames, Props/Frames): DataFrames at addresses, with the in-place assignments of preprocess.py and discretize.py; a program logic relating each
  program to its value model while all older frames stay untouched.
* C91 (Props/Covering, Props/PlainCovering): the reachability invariants of the growing loops, with the remaining examples identified as a filter of the
  training examples by the rules learned so far; the optimisation loop by induction over positions.
* C92 (Props/ClassColumn): a relation between tables that differ in the position and dtype of the class column only, preserved by discretising and ignored by
  everything after; the separate forms give such a table.
* C93 (Props/Limits): a while loop whose body may stop where another's goes on returns a state the other passes through; dedup and trim are monotone in the
  prefix order, calibration is per rule. For dl_allowance (Props/AllowanceLimit) the hypothesis is that what is within the smaller allowance is within the larger,
  proved for whole numbers of bits in exact arithmetic and for all allowances in rounded arithmetic.
* C94 (Props/Afresh): corollary of the equation for `fit` (Method.fit_completed).
* C95 (Lemmas/Recode, RecodeRip, RecodePlain, RecodeApi; Props/Recode): every function of the model commutes with the recoding; loops by a simulation (pyWhile_rel);
  comparisons by printed text need the condition PrintsAlike on the conditions of the training data and the initial model.
* C96 (ProbaRounded, Props/RoundedProba): calibration and `predict_proba` with the arithmetic as a parameter; a relation `Close u d` (equal up to d roundings) is carried through
  rates (4 roundings), sums in any order (length - 1) and the quotient; training with rounded probabilities is exact training followed by computing the rates again from the counts.
* C97 (Verbose, VerbosePlain, Props/Verbose, Props/VerbosePlain): the training programs once more with their `print` calls, a line being its level and the values in it; `Speaks v C m a` relates a talking
  program to the quiet one and is proved function by function (one lemma for `>>=`, one for `print`, one for `while`).
* C98 (Props/Irrelevant): a simulation between training on the two tables; the selection loop with and without the column's candidates agrees whenever it finds a positive gain;
  recalibration commutes with dropping a column that no rule mentions. Refutations for RIPPER and for a copy to the left.
* C99 (Lemmas/Refit, Props/Refit): IREP's loop reads the rules in its state only to count them, so started from rules `t` it runs in lockstep with the run from scratch, or stops earlier;
  duplicates of `t` are filtered out at the end, and `finish (finish l ++ q) = finish l` for every prefix `q` of `l`. Refutations for `max_rules`, other random choices and RIPPER.
* C100 (Props/ProbaAgree): the smoothed frequency of `n` negatives and `p` positives exceeds 1/2 iff `n < p`, and means of pairs on one side stay on that side; combined with C38 (what
  predict_proba answers) and C64 (what predict answers). For unpruned IREP on consistent data the criterion follows from C69 and from each learned rule covering a positive.
* C101 (Lemmas/Reorder, Props/Reorder): counts over label sets are invariant under permutation, and the candidate conditions are listed by first appearance (`unique`), so
  growing makes the same choices; simulation of the loops over permuted row lists. Discretisation of reordered columns uses `OrderFree` (pandas' break points do not depend on the order of the values).
* C98 with `cn_optimize=False` and through the API (Props/IrrelevantPlain, Props/IrrelevantApi): the same simulation on data frames, candidates being the shared values of each column;
  preprocessing commutes with dropping a column that is not discretised, so the object fitted without it is the same up to the lists of columns and candidate conditions, and answers alike.
* C102 (Props/Batches): every step of the preparation (dropping the class column, renaming, the check for unknown labels, binning) maps or refuses each row on its own (`StageAt`, closed
  under composition), and so do the rules (`ActAt`); batches and reorderings follow from `RowByRow` alone.
* C103 (Lemmas/RoundedBits, Props/RoundedBits, Props/RoundedPlain): the absolute error of every operation on numbers of bounded size, carried through the sums of ruleset lengths and through the loop of the
  growing phase by an invariant on the computed lengths so far; comparisons of numbers within the error decide up to twice it.
* C104 (Lemmas/OneVsRest, Props/OneVsRest): a frame and its `bare` form, which has the cells of its columns only, are treated alike by every function of training; positives and negatives of two labellings
  that agree have the same bare form once the class column is dropped. Preprocessing is shown to keep the two tables equal outside the class column.
* C105 (Props/RoundedGrow, Props/RoundedPrune): an error bound for a computed gain from those of its operations (`gainError`), and its sign from C81; the growing loop keeps `Spec.Greedy`. Two different quotients of
  numbers up to m differ by at least 1/m², so rounding cannot swap them; training with rounded quotients is then equal, step by step, to training with exact ones.
* C106 (Props/PlainAllowance): the invariant of C60, C61 over the states of the growing phase on DataFrames, with the exceptions of C80.
* C107 (Props/PlainErrors): a predicate on computations (`Raises`: only these exceptions), carried through every stage with an invariant on rules, on their number and on the candidates; instantiated once with the three exceptions and once with none (one rule: no row is counted twice, and rules are at most half as long as there are candidates).
* C108 (Props/Smoothing): the training programs do not mention alpha except in the last step, which is shown by unfolding each (the loops by induction); calibration as a function of the counts (`calibOf`), which `resmooth` maps. Bins: without continuous columns the transformer is empty.
* C109 (Props/OutOfReach, OutOfReachPlain): loop by loop, with an invariant under which the two bodies agree (`pyWhile_agree_inv`): a rule being grown has at most one condition per column other than the class (useful conditions are about new features, C22's chain), rules plus uncovered positives do not increase. Optimisation keeps the number of rules. The same over frames; there no distinct labels are needed, as removal by label only removes more.
* C110 (Props/ScoreParts): `predict` is row by row (C102), `score` scores what `predict` answers (C68), confusion counts add up, and a quotient of sums lies between the quotients.
* C111 (Props/OnlyReason): with distinct labels the reasons of a row are the rules that fire on it, in order (C04), and the list of rules is split at the position removed.
* C80 (RIPPER without the index: Props/PlainOptimize): the exact rationals of the model stand for bits over ℝ (`StandsFor`), with the generalised binomial coefficient (`Ring.choose`) because double counting can make its arguments negative.
* C78, C79 (objects and references; Heap, HeapSpec, Props/Heap): invariants over all histories of calls. One generic preservation theorem
  (`Lemmas/Heap.lean`: `Discipline`, `call_in`) is instantiated twice, for "no object outside a closed region changes" and for "references
  lead to existing objects and conditions are permanent"; ownership (`OneOwner`) is an invariant of programs that share nothing, under which the
  heap model is proved to refine the value model of the other modules, method by method.

The mutation runs are in `seeded/`: `mutants.py` (edits), `run.py` (rebuilds every dependent module of an edited copy and lists all
failing declarations), `log.py` (`LOG.jsonl`).

## 4. What the proofs turned up in the code

Each is proved as a `refuted` theorem or stated in an exact property.
1. Repeated index labels: a row inherits the predictions of its namesakes (C02, C04, C38).
2. Equality, hashing and de-duplication go by printed text: the number 1 and the text "1" are confused (C08, C09, C27, C32).
3. Printing and parsing a ruleset loses models with `^`, `=`, `V`, brackets, white space, numbers or empty rules (C15).
4. `CatNap.ruleset_covers` with an empty rule and an empty subset returns all labels (C18).
5. `Ruleset.covers` repeats rows covered by several rules: wrong `num_covered`, and with `cn_optimize=False` ValueError and
   UnboundLocalError in RIPPER (C45, C74).
6. `cn_optimize=False` considers only values that occur in both classes, so it cannot use the values that separate them (C70, C71).
7. RIPPER ignores `max_rule_conds` while optimising; `prune_size` 0 or None raises (C22, C35).
8. `recalibrate_proba` ignores `min_samples` and `require_min_samples`; IREP calibrates before trimming (C38, C40).
9. Edits leave the stored feature list stale; `predict_proba` fails after `init_ruleset` and `add_rule` (C11, C41).
10. `init_ruleset` models: the reconstructed bin transformer is discarded, range conditions never match numbers, the first `predict`
    may raise where the second answers (C54, C63).
11. `get_params` omits `min_rule_samples`, so cloning loses it (C52).
12. The numpy discretisation engine excludes upper bounds; missing values land in the highest bin (C49); transforming twice fails
    if a binned column has a missing value (C51).
13. A failed `IREP.fit` wipes the model (C62). A Series `y` of the wrong length is aligned by label instead of rejected (C65).
14. A positive example with a missing value can force the empty rule (C69).
15. With `cn_optimize=False` the same seed need not give the same model: ties are broken by the iteration order of a set of
    values, which depends on the hash seed of the process (C75).
16. `predict_proba` overwrites `classes_`: `fit` leaves it as `[0, 1]`, afterwards it names the classes (C63).
17. `recalibrate_proba` wants a Series of labels to be named like the class column of the fit, so after fitting on a list of labels
    it refuses every Series not named "Class" (C76).
18. `score_fidelity` on one row of data raises TypeError if the model answers an array (it becomes a plain number); `interpret_model`
    returns the ruleset, not the documented pair (C77).
19. An `IREP.fit` that raises leaves `ruleset_` bound to the very Ruleset object passed as `initial_model` (irep.py 153 does not copy):
    editing or recalibrating the classifier afterwards changes the caller's object (C78).
20. `add_rule(rule)` and the other edits store the caller's Rule object itself: recalibrating one classifier changes the probabilities of every
    other one that was given the same Rule (C79). Predictions are never affected.
21. `IREP(prune_size=1e-17)` (anything below 2^-54): `1 - prune_size` rounds to 1, the prune set is empty and fitting raises
    ZeroDivisionError or learns nothing (C81).
22. `Ruleset.truncstr(0, "right")` shows all rules instead of none (`rules[-0:]`; C83).
23. With the numpy engine a column with one number and missing values makes `fit` raise AttributeError when `n_discretize_bins=1`; a column
    whose numbers agree to `names_precision` places is left undiscretised; labels of empty ranges (`1.0 - 1.0`) occur (C84).
24. With `max_total_conds` a fit may leave an empty model without the warning for it: the rules are looked at before they are trimmed (C89).
25. At verbosity 5 `fit` can raise where it otherwise succeeds: OverflowError for data without a feature column (`rnd(float("-inf"))`,
    base_functions.py 622) and TypeError for RIPPER with `prune_size=0` (`rnd(None)`, base_functions.py 276). The lines that announce a grown and
    pruned revision (ripper.py 1009-1012, verbosity 3) show the replacement (C97).
26. With the default settings, rows `predict` calls True can be less probable according to `predict_proba` than rows it calls False (C100).
27. Where `max_rule_conds` stops a growing rule, its last condition is popped if `min_rule_samples` is set, whatever that minimum: with
    `max_rule_conds=1` and `min_rule_samples=1` every rule grown is empty, IREP learns "everything" (base_functions.py 90-95; C109).
