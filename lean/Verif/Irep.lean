import Verif.Train
import Verif.Proba
/-
IREP training (wittgenstein/irep.py), `cn_optimize=True` (the default) and `cn_optimize=False`.
-/
namespace Witt
variable [Arith]

/-- Hyperparameters of both classifiers (abstract_ruleset_classifier.py 25-65, ripper.py 30-80). -/
structure Hyper where
  pruneSize : Option Rat := some (33 / 100)
  k : Int := 2
  dlAllowance : Rat := 64
  lim : Limits := {}
  alpha : Rat := 1
  randomState : Option Int := none

/-- Loop state of a ruleset-growing phase: rules so far, remaining positive and negative labels, and the
random generator. -/
structure GrowSt (R : PyRandom) where
  rules : List (List Cond)
  pos : List Label
  neg : List Label
  g : R.G

/-- `prune_size = self.prune_size if self.prune_size is not None else 0`, irep.py 252-254, 353-355. -/
def Hyper.irepPrune (hp : Hyper) : Rat := hp.pruneSize.getD 0

/-- One iteration of the loop of irep.py 360-448 (optimised version). -/
def irepStepCn (fuel : Nat) (R : PyRandom) (cn : CatNap) (hp : Hyper) (st : GrowSt R) :
    Except PyErr (Step (GrowSt R) (GrowSt R)) := do
  if st.pos = [] then return .done st
  else if stopEarly hp.lim st.rules st.pos.length st.neg.length then return .done st
  else
    let ps := hp.irepPrune
    let (posGrow, posPrune, g1) := randomSplit R st.g st.pos (Arith.complement ps) hp.randomState
    let (negGrow, negPrune, g2) := randomSplit R g1 st.neg (Arith.complement ps) hp.randomState
    let grown ← growRuleCn fuel cn hp.lim posGrow negGrow []
    if ps = 0 then
      return .more { rules := st.rules ++ [grown],
                     pos := setDiff st.pos (cn.ruleCovers grown (some st.pos)),
                     neg := st.neg, g := g2 }
    else
      match ← pruneRule (irepMetricCn cn posPrune negPrune) grown with
      | none => .error .attributeError
      | some pruned =>
        match rulePrecisionCn cn pruned posPrune negPrune with
        | none => return .done { st with g := g2 }
        | some q =>
          if q = 0 ∨ q < 1 / 2 then return .done { st with g := g2 }
          else
            let (pos', neg') := rmRuleCoversCn cn pruned st.pos st.neg
            return .more { rules := st.rules ++ [pruned], pos := pos', neg := neg', g := g2 }

/-- irep.py 338-451: `_grow_ruleset_cn`. -/
def irepGrowCn (fuel : Nat) (R : PyRandom) (cn : CatNap) (hp : Hyper) (init : List (List Cond))
    (pos neg : List Label) (g : R.G) : Except PyErr (GrowSt R) :=
  pyWhile (irepStepCn fuel R cn hp) fuel { rules := init, pos := pos, neg := neg, g := g }

/-- A fitted model: `ruleset_`, `selected_features_`, `trainset_features_`. -/
structure Fitted where
  ruleset : Ruleset
  selected : List Feat
  trainFeats : List Feat

/-- Raise the pending exception, if any. -/
def raiseIf {α : Type} (a : α) : Option PyErr → Except PyErr α
  | none => .ok a
  | some e => .error e

/-- irep.py 94-235: `IREP.fit` with `cn_optimize=True` on data already preprocessed to a labelled,
discretised frame (`_check_valid_input_data`: an empty dataset is a ValueError, a missing class column
an IndexError). `init` are the rules of `initial_model` (`_ruleset_frommodel` copies them). The result
also carries the generator state. -/
def irepFit (fuel : Nat) (R : PyRandom) (hp : Hyper) (init : List (List Cond)) (df : Frame) (cf : Feat)
    (pc : Val) (g : R.G) : Except PyErr (Fitted × R.G) := do
  if df.rows = [] then .error .valueError
  else if cf ∉ df.cols then .error .indexError
  else
    let cn ← CatNap.build df cf
    let st ← irepGrowCn fuel R cn hp init (labelSet (posRows df cf pc).index)
      (labelSet (negRows df cf pc).index) g
    let rs : Ruleset := { rules := st.rules.map (fun c => { conds := c }), possible := some cn.conds }
    let sel := rs.selectedFeatures
    let rs ← (match recalibrate rs df cf pc hp.alpha with | (rs, e) => raiseIf rs e)
    let rs : Ruleset := { rs with rules := removeDups Rule.sameKey rs.rules }
    let rs := rs.trimConds hp.lim.maxTotalConds
    return ({ ruleset := rs, selected := sel, trainFeats := (df.dropCol cf).cols }, st.g)

end Witt
