import Mathlib.Algebra.Order.Field.Rat
import Verif.Catnap
import Verif.Random
import Verif.Scores
/-
Growing and pruning one rule (wittgenstein/base_functions.py 25-285, 429-532, 591-623).
A gain is represented by its image under an increasing function that takes 0 to 1 and `float("-inf")` to 0 (`Arith`), so
`gain > 0` is `1 < image`.
-/
namespace Witt
variable [Arith]

/-- One iteration of a `while` loop: go on with a new state, or leave with a result. -/
inductive Step (S A : Type) where
  | more (s : S)
  | done (a : A)

/-- A Python `while` loop. `fuel` bounds the number of iterations and is not part of the program: when it
runs out the result is `diverged`, and the termination theorems show that it never does for large fuel. -/
def pyWhile {S A : Type} (body : S → Except PyErr (Step S A)) : Nat → S → Except PyErr A
  | 0, _ => .error .diverged
  | fuel + 1, s => do
    match ← body s with
    | .more s' => pyWhile body fuel s'
    | .done a => .ok a

/-- The early-stopping hyperparameters (`None` = off), abstract_ruleset_classifier.py 25-65. -/
structure Limits where
  maxRules : Option Int := none
  maxRuleConds : Option Int := none
  maxTotalConds : Option Int := none
  minRuleSamples : Option Int := none
  minRulesetSamples : Option Int := none
  deriving DecidableEq, Repr

/-- `limit is not None and x >= limit`. -/
def atLeast (x : Int) : Option Int → Bool
  | none => false
  | some m => decide (m ≤ x)

/-- `limit is not None and x < limit`. -/
def below (x : Int) : Option Int → Bool
  | none => false
  | some m => decide (x < m)

/-- base_functions.py 798-802: `stop_early`. -/
def stopEarly (lim : Limits) (rules : List (List Cond)) (nPos nNeg : Nat) : Bool :=
  atLeast rules.length lim.maxRules || atLeast (countConds rules) lim.maxTotalConds ||
  below ((nPos : Int) + nNeg) lim.minRulesetSamples

/-- base_functions.py 441-454: `gain_cn`. -/
def gainCn (cn : CatNap) (c : Cond) (pos neg : List Label) : Rat :=
  Arith.gain pos.length neg.length (cn.condCovers c (some pos)).length (cn.condCovers c (some neg)).length

/-- The selection loops of base_functions.py 597-601 and 616-620: strictly better gains replace. -/
def bestLoop {α : Type} (score : α → Rat) : Option α × Rat → List α → Option α × Rat
  | b, [] => b
  | b, c :: cs => bestLoop score (if b.2 < score c then (some c, score c) else b) cs

/-- base_functions.py 607-623: `best_rule_successor_cn` (`best_gain` starts at -inf, represented by 0;
`best_gain > 0` is `1 < g`, and then `best_cond` is not None). -/
def bestRuleSuccessorCn (cn : CatNap) (rule : List Cond) (pos neg : List Label) :
    Option (List Cond) :=
  let coversPos := cn.ruleCovers rule (some pos)
  let coversNeg := cn.ruleCovers rule (some neg)
  match bestLoop (fun c => gainCn cn c coversPos coversNeg) (none, 0) cn.conds with
  | (some c, g) => if 1 < g then some (rule ++ [c]) else none
  | (none, _) => none

/-- The `user_halt` test and the `pop` of base_functions.py 47-52, 90-95. -/
def userHalt (lim : Limits) (rule : List Cond) (nNeg nPos : Nat) : Bool :=
  atLeast rule.length lim.maxRuleConds || below ((nNeg : Int) + nPos) lim.minRuleSamples

/-- The rule returned on a user halt: its last condition is popped if `min_rule_samples` is set. -/
def haltRule (lim : Limits) (rule : List Cond) : List Cond :=
  if lim.minRuleSamples.isSome && !rule.isEmpty then rule.dropLast else rule

/-- One iteration of the loop of base_functions.py 88-103 (`rule1` has the same conditions as `rule0`
whenever the loop tests it, so only `rule0` is kept). -/
def growStepCn (cn : CatNap) (lim : Limits) (pos neg : List Label) (rule : List Cond) :
    Except PyErr (Step (List Cond) (List Cond)) :=
  let nNeg := (cn.ruleCovers rule (some neg)).length
  if nNeg = 0 then .ok (.done rule)
  else if userHalt lim rule nNeg (cn.ruleCovers rule (some pos)).length then
    .ok (.done (haltRule lim rule))
  else
    match bestRuleSuccessorCn cn rule pos neg with
    | none => .ok (.done rule)
    | some r => .ok (.more r)

/-- base_functions.py 70-112: `grow_rule_cn` (only `max_rule_conds` and `min_rule_samples` of `lim` are
used). -/
def growRuleCn (fuel : Nat) (cn : CatNap) (lim : Limits) (pos neg : List Label) (initial : List Cond) :
    Except PyErr (List Cond) :=
  pyWhile (growStepCn cn lim pos neg) fuel initial

/-- `rule.num_covered(df)` on a condition list, base.py 379-387. -/
def numCoveredC (r : List Cond) (df : Frame) : Except PyErr Nat := do
  return (← condsCover r df).rows.length

/-- base_functions.py 429-438: `gain` from one rule to another on DataFrames. -/
def gainDf (before after : List Cond) (pos neg : Frame) : Except PyErr Rat := do
  let p0 ← numCoveredC before pos
  let p1 ← numCoveredC after pos
  let n0 ← numCoveredC before neg
  let n1 ← numCoveredC after neg
  return Arith.gain p0 n0 p1 n1

/-- base.py 397-412: `successors` with `possible_conds` given: append each condition not yet present. -/
def successors (rule : List Cond) (possible : List Cond) : List (List Cond) :=
  (possible.filter (fun c => !condIn c rule)).map (fun c => rule ++ [c])

/-- The loop of base_functions.py 597-601 with gains that may raise. -/
def bestLoopM (score : List Cond → Except PyErr Rat) :
    Option (List Cond) × Rat → List (List Cond) → Except PyErr (Option (List Cond) × Rat)
  | b, [] => .ok b
  | b, s :: ss => do
    let g ← score s
    bestLoopM score (if b.2 < g then (some s, g) else b) ss

/-- base_functions.py 591-604: `best_successor` (`best_gain` starts at 0, represented by 1). -/
def bestSuccessor (rule : List Cond) (possible : List Cond) (pos neg : Frame) :
    Except PyErr (Option (List Cond)) := do
  return (← bestLoopM (fun s => gainDf rule s pos neg) (none, 1) (successors rule possible)).1

/-- One iteration of the loop of base_functions.py 42-62. -/
def growStep (possible : List Cond) (lim : Limits) (pos neg : Frame) (rule : List Cond) :
    Except PyErr (Step (List Cond) (List Cond)) := do
  let nNeg ← numCoveredC rule neg
  if nNeg = 0 then return .done rule
  else do
    let nPos ← (if lim.minRuleSamples.isSome then numCoveredC rule pos else .ok 0)
    if userHalt lim rule nNeg nPos then return .done (haltRule lim rule)
    else
      match ← bestSuccessor rule possible pos neg with
      | none => return .done rule
      | some r => return .more r

/-- base_functions.py 25-68: `grow_rule`. (`num_covered(pos_df)` is evaluated when `min_rule_samples` is
set even if `max_rule_conds` already halts; it raises only when a column is missing, which
`rule0.covers(neg_df)` has then already reported.) -/
def growRule (fuel : Nat) (possible : List Cond) (lim : Limits) (pos neg : Frame)
    (initial : List Cond) : Except PyErr (List Cond) :=
  pyWhile (growStep possible lim pos neg) fuel initial

/-! ### pruning -/

/-- The loop of base_functions.py 149-160 and 240-251: try the prefixes of length `n`, `n-1`, ..., 1; a
metric of None makes the result None; ties prefer the shorter prefix. -/
def pruneLoop (metric : List Cond → Except PyErr (Option Rat)) (rule : List Cond) :
    Nat → List Cond × Rat → Except PyErr (Option (List Cond))
  | 0, best => .ok (some best.1)
  | n + 1, best => do
    match ← metric (rule.take (n + 1)) with
    | none => return none
    | some v =>
      pruneLoop metric rule n (if best.2 ≤ v then (rule.take (n + 1), v) else best)

/-- base_functions.py 115-167 and 204-258: `prune_rule`, `prune_rule_cn` without a ruleset. -/
def pruneRule (metric : List Cond → Except PyErr (Option Rat)) (rule : List Cond) :
    Except PyErr (Option (List Cond)) :=
  if rule = [] then .ok (some rule) else pruneLoop metric rule rule.length (rule, 0)

/-- The loop of base_functions.py 184-200 and 274-285, where `best_rule` starts unbound. -/
def pruneLoopRs (metric : List Cond → Except PyErr (Option Rat)) (rule : List Cond) :
    Nat → Option (List Cond) × Rat → Except PyErr (Option (List Cond))
  | 0, best => match best.1 with
    | some b => .ok (some b)
    | none => .error .unboundLocal
  | n + 1, best => do
    match ← metric (rule.take (n + 1)) with
    | none => return none
    | some v =>
      pruneLoopRs metric rule n (if best.2 ≤ v then (some (rule.take (n + 1)), v) else best)

/-- base_functions.py 169-200 and 261-285: pruning with `eval_index_on_ruleset=(i, ruleset)`. The metric
of the optimised version looks at the rule only. -/
def pruneRuleOn (metric : List Cond → Except PyErr (Option Rat)) (rule : List Cond)
    (rules : List (List Cond)) (i : Nat) : Except PyErr (Option (List Cond)) :=
  if rule = [] then .ok (some rule)
  else match rules[i]? with
    | none => .error .indexError
    | some r =>
      if !condsEq r rule then .error .valueError
      else pruneLoopRs metric r r.length (none, 0)

/-- irep.py 467-474: `_IREP_prune_metric_cn`. -/
def irepMetricCn (cn : CatNap) (pos neg : List Label) (r : List Cond) : Except PyErr (Option Rat) :=
  let P := pos.length
  let N := neg.length
  let p := (cn.ruleCovers r (some pos)).length
  let n := (cn.ruleCovers r (some neg)).length
  if P + N = 0 then .error .zeroDivision
  else .ok (some (Arith.quot ((p : Int) + ((N : Int) - n)) ((P : Int) + N)))

/-- irep.py 457-464: `_IREP_prune_metric`. -/
def irepMetric (pos neg : Frame) (r : List Cond) : Except PyErr (Option Rat) := do
  let P := pos.rows.length
  let N := neg.rows.length
  let p ← numCoveredC r pos
  let n ← numCoveredC r neg
  if P + N = 0 then .error .zeroDivision
  else return some (Arith.quot ((p : Int) + ((N : Int) - n)) ((P : Int) + N))

/-- ripper.py 1217-1229: `_RIPPER_growphase_prune_metric_cn`. -/
def ripperGrowMetricCn (cn : CatNap) (pos neg : List Label) (r : List Cond) :
    Except PyErr (Option Rat) :=
  let p := (cn.ruleCovers r (some pos)).length
  let n := (cn.ruleCovers r (some neg)).length
  .ok (some (Arith.quot ((p : Int) - n + 1) ((p : Int) + n + 1)))

/-- ripper.py 1202-1214: `_RIPPER_growphase_prune_metric`. -/
def ripperGrowMetric (pos neg : Frame) (r : List Cond) : Except PyErr (Option Rat) := do
  let p ← numCoveredC r pos
  let n ← numCoveredC r neg
  return some (Arith.quot ((p : Int) - n + 1) ((p : Int) + n + 1))

/-- ripper.py 1234-1237 and base_functions.py 520-532: `_rule_accuracy_cn`. -/
def ripperOptMetricCn (cn : CatNap) (pos neg : List Label) (r : List Cond) :
    Except PyErr (Option Rat) :=
  let P := pos.length
  let N := neg.length
  if P + N = 0 then .ok none
  else
    let tp := (cn.ruleCovers r (some pos)).length
    let tn : Int := (N : Int) - (cn.ruleCovers r (some neg)).length
    .ok (some (Arith.quot ((tp : Int) + tn) ((P : Int) + N)))

/-- base_functions.py 472-484: `rule_precision_cn`. -/
def rulePrecisionCn (cn : CatNap) (r : List Cond) (pos neg : List Label) : Option Rat :=
  let p := (cn.ruleCovers r (some pos)).length
  let n := (cn.ruleCovers r (some neg)).length
  if p + n = 0 then none else some (Arith.quot p ((p : Int) + n))

end Witt
