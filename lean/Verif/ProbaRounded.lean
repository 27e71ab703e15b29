import Verif.Rounding
import Verif.Plain
/-
Probabilities as the program computes them, in floating point: calibration (wittgenstein/base_functions.py 288-422) and `predict_proba`
(wittgenstein/base.py 254-292) with the arithmetic as a parameter.
-/
namespace Witt

/-- The arithmetic of calibration and `predict_proba`. -/
structure ProbaArith where
  /-- `n / total if total else 0` (base_functions.py 335-336, 356-357) -/
  rate : Int → Int → Rat
  /-- `additive_smoothed_rates` (base_functions.py 408-422) -/
  rates : Rat → Int × Int → Except PyErr (Rat × Rat)
  /-- `weighted_avg_freqs` (utils.py 74-81) -/
  average : List (Rat × Rat) → Rat × Rat

/-- The exact arithmetic of Verif/Proba.lean and Verif/Rules.lean. -/
def ProbaArith.exact : ProbaArith := { rate := rateOrZero, rates := smoothedRates, average := weightedAvg }

/-- `x` is a sum of the doubles in the list by additions of two, in some order: what numpy's `sum` computes, which adds up pairwise
and with several accumulators. -/
inductive Rounding.SumsTo (r : Rounding) : List Rat → Rat → Prop
  | none : SumsTo r [] 0
  | one (x : Rat) : SumsTo r [x] x
  | add {a b : List Rat} {x y : Rat} : a ≠ [] → b ≠ [] → SumsTo r a x → SumsTo r b y → SumsTo r (a ++ b) (r.fl (x + y))
  | reorder {a b : List Rat} {x : Rat} : a.Perm b → SumsTo r b x → SumsTo r a x

/-- How an array is summed up. -/
structure Rounding.Adder (r : Rounding) where
  sum : List Rat → Rat
  sums : ∀ l, r.SumsTo l (sum l)

/-- The program's arithmetic with rounding: every operation on doubles is rounded; `total` and `column` are the orders in which
numpy adds up all numbers of an array and those of a column. -/
noncomputable def Rounding.probas (r : Rounding) (total column : r.Adder) : ProbaArith where
  rate n t := if t = 0 then 0 else r.fl (n / t)
  rates alpha ns :=
    let denom := r.fl (r.fl ((ns.1 + ns.2 : Int) : ℝ) + r.fl (alpha * (2 : ℝ)))
    if denom = 0 then .error .zeroDivision
    else .ok (r.fl (r.fl (r.fl (ns.1 : ℝ) + alpha) / denom), r.fl (r.fl (r.fl (ns.2 : ℝ) + alpha) / denom))
  average ps :=
    let t := total.sum (ps.flatMap (fun p => [p.1, p.2]))
    let a := column.sum (ps.map Prod.fst)
    let b := column.sum (ps.map Prod.snd)
    if t = 0 then (a, b) else (r.fl (a / t), r.fl (b / t))

/-- `calibrate` (base_functions.py 338-340, 358-360) with the arithmetic `A`. -/
def calibrateWith (A : ProbaArith) (alpha : Rat) (ns : Int × Int) (old : Calib) : Calib × Option PyErr :=
  let total := ns.1 + ns.2
  let c : Calib := { old with ns := some ns, freqs := some (A.rate ns.1 total, A.rate ns.2 total) }
  match A.rates alpha ns with
  | .error e => (c, some e)
  | .ok s => ({ c with smoothed := some s }, none)

/-- `recalRule` (base_functions.py 330-351) with the arithmetic `A`. -/
def recalRuleWith (A : ProbaArith) (df : Frame) (cf : Feat) (pc : Val) (alpha : Rat) (r : Rule) : Rule × Option PyErr :=
  match (do
      let covered ← r.covers df
      let tp ← numPos covered cf pc
      return (((covered.rows.length : Int) - tp, (tp : Int)) : Int × Int)) with
  | .error e => (r, some e)
  | .ok ns =>
    let (c, err) := calibrateWith A alpha ns r.cal
    ({ r with cal := c }, err)

/-- `recalRules` (base_functions.py 330-351) with the arithmetic `A`. -/
def recalRulesWith (A : ProbaArith) (df : Frame) (cf : Feat) (pc : Val) (alpha : Rat) : List Rule → List Rule × Option PyErr
  | [] => ([], none)
  | r :: rs =>
    match recalRuleWith A df cf pc alpha r with
    | (r', some e) => (r' :: rs, some e)
    | (r', none) =>
      let (rs', err) := recalRulesWith A df cf pc alpha rs
      (r' :: rs', err)

/-- `recalibrate` (base_functions.py 288-361) with the arithmetic `A`. -/
def recalibrateWith (A : ProbaArith) (rs : Ruleset) (df : Frame) (cf : Feat) (pc : Val) (alpha : Rat) : Ruleset × Option PyErr :=
  if rs.selectedFeatures.any (fun f => !df.cols.contains f) then (rs, some .indexError)
  else
    match recalRulesWith A df cf pc alpha rs.rules with
    | (rules, some e) => ({ rs with rules := rules }, some e)
    | (rules, none) =>
      let rs1 : Ruleset := { rs with rules := rules }
      match (do
          let covered ← rs1.covers df
          let uncovered := df.dropLabels covered.index
          let tn ← numNeg uncovered cf pc
          return (((tn : Int), (uncovered.rows.length : Int) - tn) : Int × Int)) with
      | .error e => (rs1, some e)
      | .ok ns =>
        let (c, err) := calibrateWith A alpha ns rs1.uncov
        ({ rs1 with uncov := c }, err)

/-- `Ruleset.predictProba` (base.py 254-292) with the arithmetic `A`. -/
def Ruleset.predictProbaWith (A : ProbaArith) (rs : Ruleset) (df : Frame) : Except PyErr (List (Rat × Rat)) := do
  let unc := A.average [← attr rs.uncov.smoothed]
  let (ps, reasons) ← rs.predictReasons df
  (ps.zip reasons).mapM (fun pr =>
    if !pr.1 then .ok unc
    else do return A.average (← pr.2.mapM (fun r => attr r.cal.smoothed)))

section
variable [Arith]

/-- `irepFit` (irep.py 94-235) with the arithmetic `A` in its calibration. -/
def irepFitWith (A : ProbaArith) (fuel : Nat) (R : PyRandom) (hp : Hyper) (init : List (List Cond)) (df : Frame) (cf : Feat)
    (pc : Val) (g : R.G) : Except PyErr (Fitted × R.G) := do
  if df.rows = [] then .error .valueError
  else if cf ∉ df.cols then .error .indexError
  else
    let cn ← CatNap.build df cf
    let st ← irepGrowCn fuel R cn hp init (labelSet (posRows df cf pc).index)
      (labelSet (negRows df cf pc).index) g
    let rs : Ruleset := { rules := st.rules.map (fun c => { conds := c }), possible := some cn.conds }
    let sel := rs.selectedFeatures
    let rs ← (match recalibrateWith A rs df cf pc hp.alpha with | (rs, e) => raiseIf rs e)
    let rs : Ruleset := { rs with rules := removeDups Rule.sameKey rs.rules }
    let rs := rs.trimConds hp.lim.maxTotalConds
    return ({ ruleset := rs, selected := sel, trainFeats := (df.dropCol cf).cols }, st.g)

/-- `ripperFit` (ripper.py 115-390) with the arithmetic `A` in its calibration. -/
def ripperFitWith (A : ProbaArith) (fuel : Nat) (R : PyRandom) (hp : Hyper) (init : List (List Cond)) (df : Frame) (cf : Feat)
    (pc : Val) (g : R.G) : Except PyErr (Fitted × R.G) := do
  if df.rows = [] then .error .valueError
  else if cf ∉ df.cols then .error .indexError
  else
    let cn ← CatNap.build df cf
    let (rules, g) ← ripperStages fuel R cn hp init (labelSet (posRows df cf pc).index)
      (labelSet (negRows df cf pc).index) g
    let rs : Ruleset := { rules := rules.map (fun c => { conds := c }) }
    let sel := rs.selectedFeatures
    let rs : Ruleset := { rs with rules := removeDups Rule.sameKey rs.rules }
    let rs := rs.trimConds hp.lim.maxTotalConds
    let rs ← (match recalibrateWith A rs df cf pc hp.alpha with | (rs, e) => raiseIf rs e)
    return ({ ruleset := rs, selected := sel, trainFeats := (df.dropCol cf).cols }, g)

/-- `irepFitPlain` (irep.py 94-235 with `cn_optimize=False`) with the arithmetic `A` in its calibration. -/
def irepFitPlainWith (A : ProbaArith) (fuel : Nat) (R : PyRandom) (S : SetOps) (hp : Hyper) (old : Option (List Cond))
    (init : List (List Cond)) (df : Frame) (cf : Feat) (pc : Val) (g : R.G) : Except PyErr (Fitted × R.G) := do
  if df.rows = [] then .error .valueError
  else if cf ∉ df.cols then .error .indexError
  else
    let cands := updatedConds S old (posExamples df cf pc) (negExamples df cf pc)
    let st ← irepGrow fuel R cands hp init (posExamples df cf pc) (negExamples df cf pc) g
    let rs : Ruleset := { rules := st.rules.map (fun c => { conds := c }), possible := some cands }
    let sel := rs.selectedFeatures
    let rs ← (match recalibrateWith A rs df cf pc hp.alpha with | (rs, e) => raiseIf rs e)
    let rs : Ruleset := { rs with rules := removeDups Rule.sameKey rs.rules }
    let rs := rs.trimConds hp.lim.maxTotalConds
    return ({ ruleset := rs, selected := sel, trainFeats := (df.dropCol cf).cols }, st.g)

/-- `ripperFitPlain` (ripper.py 115-390 with `cn_optimize=False`) with the arithmetic `A` in its calibration. -/
def ripperFitPlainWith (A : ProbaArith) (fuel : Nat) (R : PyRandom) (S : SetOps) (hp : Hyper) (old : Option (List Cond))
    (init : List (List Cond)) (df : Frame) (cf : Feat) (pc : Val) (g : R.G) : Except PyErr (Fitted × R.G) := do
  if df.rows = [] then .error .valueError
  else if cf ∉ df.cols then .error .indexError
  else
    let (rules, g) ← ripperStagesDf fuel R S hp old init (posExamples df cf pc) (negExamples df cf pc) g
    let rs : Ruleset := { rules := rules.map (fun c => { conds := c }) }
    let sel := rs.selectedFeatures
    let rs : Ruleset := { rs with rules := removeDups Rule.sameKey rs.rules }
    let rs := rs.trimConds hp.lim.maxTotalConds
    let rs ← (match recalibrateWith A rs df cf pc hp.alpha with | (rs, e) => raiseIf rs e)
    return ({ ruleset := rs, selected := sel, trainFeats := (df.dropCol cf).cols }, g)
end

end Witt
