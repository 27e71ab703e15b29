import Mathlib.Algebra.Order.Field.Rat
import Verif.Catnap
/-
Probability calibration (wittgenstein/base_functions.py 288-422).
-/
namespace Witt

/-- base_functions.py 408-422: `additive_smoothed_rates` of a pair of counts. -/
def smoothedRates (alpha : Rat) (counts : Int × Int) : Except PyErr (Rat × Rat) :=
  let denom : Rat := ((counts.1 + counts.2 : Int) : Rat) + alpha * 2
  if denom = 0 then .error .zeroDivision
  else .ok (((counts.1 : Rat) + alpha) / denom, ((counts.2 : Rat) + alpha) / denom)

/-- `n / total if total else 0`. -/
def rateOrZero (n total : Int) : Rat := if total = 0 then 0 else (n : Rat) / total

/-- base_functions.py 704-706: `num_pos`. -/
def numPos (df : Frame) (cf : Feat) (pc : Val) : Except PyErr Nat :=
  if cf ∈ df.cols then .ok (posRows df cf pc).rows.length else .error .keyError

/-- base_functions.py 709-711: `num_neg`. -/
def numNeg (df : Frame) (cf : Feat) (pc : Val) : Except PyErr Nat :=
  if cf ∈ df.cols then .ok (negRows df cf pc).rows.length else .error .keyError

/-- The attributes set for one (negative, positive) count pair, in order (base_functions.py 338-340,
358-360): counts and frequencies are stored even if the smoothed rates then raise. -/
def calibrate (alpha : Rat) (ns : Int × Int) (old : Calib) : Calib × Option PyErr :=
  let total := ns.1 + ns.2
  let c : Calib := { old with
    ns := some ns, freqs := some (rateOrZero ns.1 total, rateOrZero ns.2 total) }
  match smoothedRates alpha ns with
  | .error e => (c, some e)
  | .ok s => ({ c with smoothed := some s }, none)

/-- One iteration of base_functions.py 330-351: the rule afterwards, and the exception if one is raised. -/
def recalRule (df : Frame) (cf : Feat) (pc : Val) (alpha : Rat) (r : Rule) : Rule × Option PyErr :=
  match (do
      let covered ← r.covers df
      let tp ← numPos covered cf pc
      return (((covered.rows.length : Int) - tp, (tp : Int)) : Int × Int)) with
  | .error e => (r, some e)
  | .ok ns =>
    let (c, err) := calibrate alpha ns r.cal
    ({ r with cal := c }, err)

/-- The loop of base_functions.py 330-351: rules after an exception are left as they were. -/
def recalRules (df : Frame) (cf : Feat) (pc : Val) (alpha : Rat) :
    List Rule → List Rule × Option PyErr
  | [] => ([], none)
  | r :: rs =>
    match recalRule df cf pc alpha r with
    | (r', some e) => (r' :: rs, some e)
    | (r', none) =>
      let (rs', err) := recalRules df cf pc alpha rs
      (r' :: rs', err)

/-- base_functions.py 288-361: `recalibrate_proba` on a labelled frame: the ruleset afterwards, and the
exception if one is raised. `min_samples` and `require_min_samples` influence nothing (everything after
line 361 is a string literal), so they are not parameters here; see `recalibrateProba`. -/
def recalibrate (rs : Ruleset) (df : Frame) (cf : Feat) (pc : Val) (alpha : Rat) :
    Ruleset × Option PyErr :=
  if rs.selectedFeatures.any (fun f => !df.cols.contains f) then (rs, some .indexError)
  else
    match recalRules df cf pc alpha rs.rules with
    | (rules, some e) => ({ rs with rules := rules }, some e)
    | (rules, none) =>
      let rs1 : Ruleset := { rs with rules := rules }
      match (do
          let covered ← rs1.covers df
          let uncovered := df.dropLabels covered.index
          let tn ← numNeg uncovered cf pc
          return (((tn : Int), (uncovered.rows.length : Int) - tn) : Int × Int)) with
      | .error e => (rs1, some e)
      | .ok ns =>
        let (c, err) := calibrate alpha ns rs1.uncov
        ({ rs1 with uncov := c }, err)

/-- The rules collected in `insufficient_rules` (base_functions.py 349-351): those of a calibration set
smaller than `min_samples`, or covering no positive row. -/
def insufficient (rs : Ruleset) (df : Frame) (minSamples : Option Int) : List Rule :=
  let m := match minSamples with
    | none => 1
    | some m => if m < 1 then 1 else m
  rs.rules.filter (fun r => (df.rows.length : Int) < m || match r.cal.ns with
    | some (_, tp) => tp < 1
    | none => false)

/-- base_functions.py 288-406: `recalibrate_proba` with its sample-size parameters. The list of rules with
too few samples is computed, but the code that would use it (lines 362-406) is inside a string literal, so
neither parameter influences the result. -/
def recalibrateProba (rs : Ruleset) (df : Frame) (cf : Feat) (pc : Val) (minSamples : Option Int)
    (_requireMinSamples : Bool) (alpha : Rat) : Ruleset × Option PyErr :=
  let out := recalibrate rs df cf pc alpha
  let _insufficientRules := insufficient out.1 df minSamples
  out

end Witt
