import Verif.Classifier
/-
Training with `cn_optimize=False`: the same algorithms over DataFrames instead of a coverage index, with their own
candidate conditions (base.py 158-170) and their own description lengths (ripper.py 1281-1420).
-/
namespace Witt
variable [Arith]

/-- `set(a).intersection(set(b))` on cell values, enumerated in some order: Python fixes neither the order nor, of
two equal elements (`1` and `True`), the one that is kept, so the operation is a parameter. -/
structure SetOps where
  inter : List Val → List Val → List Val

/-- Python `==`, or both missing (the two NaN objects may be one and the same). -/
def Val.sameOrNan (a b : Val) : Prop := a.pyEq b = true ∨ (a = .nan ∧ b = .nan)

/-- All that is assumed of set intersection: its elements come from the operands and have an equal in both, and any
two equal elements of the operands have an equal in it. (Missing values may or may not be shared.) -/
structure SetOps.Lawful (S : SetOps) : Prop where
  mem : ∀ a b v, v ∈ S.inter a b → v ∈ a ∨ v ∈ b
  left : ∀ a b v, v ∈ S.inter a b → ∃ x ∈ a, x.sameOrNan v
  right : ∀ a b v, v ∈ S.inter a b → ∃ y ∈ b, y.sameOrNan v
  all : ∀ a b x y, x ∈ a → y ∈ b → x.pyEq y = true → ∃ v ∈ S.inter a b, v.pyEq x = true

/-- base.py 158-170: what `_update_possible_conds` appends: for every column the values found in both frames
(`- set(self.possible_conds)` subtracts conditions from values and so removes nothing). -/
def sharedConds (S : SetOps) (pos neg : Frame) : List Cond :=
  pos.cols.flatMap (fun f => (S.inter (pos.unique f) (neg.unique f)).map (fun v => { feature := f, val := v }))

/-- base.py 158-170: `possible_conds` after `_update_possible_conds` (`old`: the attribute before, if set). -/
def updatedConds (S : SetOps) (old : Option (List Cond)) (pos neg : Frame) : List Cond :=
  old.getD [] ++ sharedConds S pos neg

/-- Loop state of a growing phase over DataFrames: rules so far, remaining positive and negative examples. -/
structure FrameSt (R : PyRandom) where
  rules : List (List Cond)
  pos : Frame
  neg : Frame
  g : R.G

/-- base_functions.py 457-469: `precision` of a rule. -/
def precisionDf (r : List Cond) (pos neg : Frame) : Except PyErr (Option Rat) := do
  let p ← numCoveredC r pos
  let n ← numCoveredC r neg
  if p + n = 0 then return none else return some (Arith.quot p ((p : Int) + n))

/-- One iteration of the loop of irep.py 259-333. -/
def irepStep (fuel : Nat) (R : PyRandom) (cands : List Cond) (hp : Hyper) (st : FrameSt R) :
    Except PyErr (Step (FrameSt R) (FrameSt R)) := do
  if st.pos.rows = [] then return .done st
  else if stopEarly hp.lim st.rules st.pos.rows.length st.neg.rows.length then return .done st
  else
    let ps := hp.irepPrune
    let (posGrow, posPrune, g1) := dfShuffledSplit R st.g st.pos (Arith.complement ps) hp.randomState
    let (negGrow, negPrune, g2) := dfShuffledSplit R g1 st.neg (Arith.complement ps) hp.randomState
    let grown ← growRule fuel cands hp.lim posGrow negGrow []
    if ps = 0 then
      let covered ← condsCover grown st.pos
      return .more { rules := st.rules ++ [grown], pos := st.pos.dropLabels covered.index, neg := st.neg, g := g2 }
    else
      match ← pruneRule (irepMetric posPrune negPrune) grown with
      | none => .error .attributeError
      | some pruned =>
        match ← precisionDf pruned posPrune negPrune with
        | none => return .done { st with g := g2 }
        | some q =>
          if q = 0 ∨ q < 1 / 2 then return .done { st with g := g2 }
          else
            let (pos', neg') ← rmCoveredRule pruned st.pos st.neg
            return .more { rules := st.rules ++ [pruned], pos := pos', neg := neg', g := g2 }

/-- irep.py 237-336: `_grow_ruleset`, with the candidates of base.py 158-170 given. -/
def irepGrow (fuel : Nat) (R : PyRandom) (cands : List Cond) (hp : Hyper) (init : List (List Cond))
    (pos neg : Frame) (g : R.G) : Except PyErr (FrameSt R) :=
  pyWhile (irepStep fuel R cands hp) fuel { rules := init, pos := pos, neg := neg, g := g }

/-- The training examples of a class without the class column, irep.py 187-191, ripper.py 219-223. -/
def posExamples (df : Frame) (cf : Feat) (pc : Val) : Frame := (posRows df cf pc).dropCol cf
/-- The negative examples. -/
def negExamples (df : Frame) (cf : Feat) (pc : Val) : Frame := (negRows df cf pc).dropCol cf

/-- irep.py 94-235: `IREP.fit` with `cn_optimize=False` on preprocessed data; `old` is `possible_conds` of the initial
model. -/
def irepFitPlain (fuel : Nat) (R : PyRandom) (S : SetOps) (hp : Hyper) (old : Option (List Cond))
    (init : List (List Cond)) (df : Frame) (cf : Feat) (pc : Val) (g : R.G) : Except PyErr (Fitted × R.G) := do
  if df.rows = [] then .error .valueError
  else if cf ∉ df.cols then .error .indexError
  else
    let cands := updatedConds S old (posExamples df cf pc) (negExamples df cf pc)
    let st ← irepGrow fuel R cands hp init (posExamples df cf pc) (negExamples df cf pc) g
    let rs : Ruleset := { rules := st.rules.map (fun c => { conds := c }), possible := some cands }
    let sel := rs.selectedFeatures
    let rs ← (match recalibrate rs df cf pc hp.alpha with | (rs, e) => raiseIf rs e)
    let rs : Ruleset := { rs with rules := removeDups Rule.sameKey rs.rules }
    let rs := rs.trimConds hp.lim.maxTotalConds
    return ({ ruleset := rs, selected := sel, trainFeats := (df.dropCol cf).cols }, st.g)

/-! ### RIPPER -/

/-- `Ruleset(rules).num_covered(df)`: a row is counted once per rule that covers it. -/
def rulesNumCovered (rules : List (List Cond)) (df : Frame) : Except PyErr Nat :=
  ({ rules := rules.map (fun c => { conds := c }) } : Ruleset).numCovered df

/-- ripper.py 1281-1306: `_exceptions_bits`. -/
def exceptionsDf (rules : List (List Cond)) (pos neg : Frame) : Except PyErr Rat := do
  let N : Int := (pos.rows.length : Int) + neg.rows.length
  let posCov ← rulesNumCovered rules pos
  let negCov ← rulesNumCovered rules neg
  let p : Int := (posCov : Int) + negCov
  let fp : Int := negCov
  let fn : Int := (pos.rows.length : Int) - posCov
  return Arith.addDl (← log2Exp (nCr p fp)) (← log2Exp (nCr (N - p) fn))

/-- ripper.py 1373-1378: `_rs_total_bits` with `bestsubset_dl=False`, for `n` possible conditions. -/
def totalBitsDf (n : Nat) (rules : List (List Cond)) (pos neg : Frame) : Except PyErr Rat := do
  return Arith.addDl (← rsTheory n rules) (← exceptionsDf rules pos neg)

/-- The first loop of ripper.py 1385-1397. -/
def subsetDlsDf (n : Nat) (pos neg : Frame) (theory : Rat) (done : List (List Cond)) :
    List (List Cond) → Except PyErr (List Rat)
  | [] => .ok []
  | r :: rs => do
    let t := Arith.addDl theory (← ruleTheory n r.length)
    let e ← exceptionsDf (done ++ [r]) pos neg
    return Arith.addDl t e :: (← subsetDlsDf n pos neg t (done ++ [r]) rs)

/-- ripper.py 1379-1420: `_rs_total_bits` with `bestsubset_dl=True`: the best subset and its length. -/
def bestSubsetDf (n : Nat) (rules : List (List Cond)) (pos neg : Frame) : Except PyErr (List (List Cond) × Rat) := do
  let dls ← subsetDlsDf n pos neg Arith.zeroDl [] rules
  let mdl := mdlFilter none (rules.zip dls)
  return (mdl, ← totalBitsDf n mdl pos neg)

/-- Loop state of RIPPER's growing phase over DataFrames (`dl`, `diff` as in `RipSt`). -/
structure FrameRipSt (R : PyRandom) where
  rules : List (List Cond)
  pos : Frame
  neg : Frame
  dl : Option (Rat × Rat)
  diff : Rat
  g : R.G

/-- One iteration of the loop of ripper.py 457-555; a grown rule is always pruned here, whatever `prune_size`. -/
def ripperStep (fuel : Nat) (R : PyRandom) (cands : List Cond) (hp : Hyper) (allPos allNeg : Frame)
    (st : FrameRipSt R) : Except PyErr (Step (FrameRipSt R) (FrameRipSt R)) := do
  if st.pos.rows = [] ∨ !Arith.within st.diff hp.dlAllowance then return .done st
  else if stopEarly hp.lim st.rules st.pos.rows.length st.neg.rows.length then return .done st
  else
    match hp.pruneSize with
    | none => .error .typeError
    | some ps =>
      let (posGrow, posPrune, g1) := dfShuffledSplit R st.g st.pos (Arith.complement ps) hp.randomState
      let (negGrow, negPrune, g2) := dfShuffledSplit R g1 st.neg (Arith.complement ps) hp.randomState
      if posGrow.rows = [] then return .done { st with g := g2 }
      else
        let grown ← growRule fuel cands hp.lim posGrow negGrow []
        if grown = [] then return .done { st with g := g2 }
        else
          match ← pruneRule (ripperGrowMetric posPrune negPrune) grown with
          | none => .error .attributeError
          | some pruned =>
            let rules := st.rules ++ [pruned]
            let ruleDl ← ruleTheory cands.length pruned.length
            let dataDl ← exceptionsDf rules allPos allNeg
            let (dl, d) := ripDl st.dl ruleDl dataDl
            let (pos', neg') ← rmCoveredRule pruned st.pos st.neg
            return .more { rules := rules, pos := pos', neg := neg', dl := some dl,
                           diff := d.getD st.diff, g := g2 }

/-- ripper.py 428-557: `_grow_ruleset`, with the candidates given. -/
def ripperGrow (fuel : Nat) (R : PyRandom) (cands : List Cond) (hp : Hyper) (init : List (List Cond))
    (pos neg : Frame) (g : R.G) : Except PyErr (FrameRipSt R) :=
  pyWhile (ripperStep fuel R cands hp pos neg) fuel
    { rules := init, pos := pos, neg := neg, dl := none, diff := Arith.zeroDl, g := g }

/-- base_functions.py 505-517: `_accuracy` of a ruleset (rows counted once per covering rule); None without
examples. -/
def rulesetAccuracy (rules : List (List Cond)) (pos neg : Frame) : Except PyErr (Option Rat) := do
  let P := pos.rows.length
  let N := neg.rows.length
  if P + N = 0 then return none
  else do
    let tp ← rulesNumCovered rules pos
    let fp ← rulesNumCovered rules neg
    return some (Arith.quot ((tp : Int) + ((N : Int) - fp)) ((P : Int) + N))

/-- ripper.py 736-829: the choice for rule `i`. Both alternatives are pruned on the accuracy of the whole ruleset, and
all three rulesets are compared by the length of their best subset. (`max_rule_conds` is not passed, ripper.py 288-295;
a None choice raises AttributeError, here at the choice, as in `optimizeChoice`.) -/
def optimizeChoiceDf (fuel : Nat) (cands : List Cond) (hp : Hyper) (original : List (List Cond))
    (originalDl : Rat) (i : Nat) (rule : List Cond) (allPos allNeg : Frame)
    (posGrow posPrune negGrow negPrune : Frame) : Except PyErr (List Cond) := do
  let lim : Limits := { minRuleSamples := hp.lim.minRuleSamples }
  let metric : List Cond → Except PyErr (Option Rat) :=
    fun r => rulesetAccuracy (iReplaced original i (some r)) posPrune negPrune
  let gRep ← growRule fuel cands lim posGrow negGrow []
  let prRep ← pruneRuleOn metric gRep (iReplaced original i (some gRep)) i
  let gRev ← growRule fuel cands lim posGrow negGrow rule
  let prRev ← pruneRuleOn metric gRev (iReplaced original i (some gRev)) i
  let isRule : Option (List Cond) → Bool := fun o => match o with
    | none => false
    | some r => condsEq r rule
  let repDl ← (if isRule prRep then .ok originalDl
               else do return (← bestSubsetDf cands.length (iReplaced original i prRep) allPos allNeg).2)
  let revDl ← (if isRule prRev then .ok originalDl
               else do return (← bestSubsetDf cands.length (iReplaced original i prRev) allPos allNeg).2)
  let best ← argmin (fun a b => decide (a < b)) [originalDl, repDl, revDl]
  match best with
  | 0 => return rule
  | 1 => match prRep with
    | some r => return r
    | none => .error .attributeError
  | _ => match prRev with
    | some r => return r
    | none => .error .attributeError

/-- The loop of ripper.py 736-891 over the rules of `original` from position `i` on. -/
def optimizeLoopDf (fuel : Nat) (R : PyRandom) (cands : List Cond) (hp : Hyper) (ps : Rat) (rs : Option Int)
    (original : List (List Cond)) (originalDl : Rat) (allPos allNeg : Frame) :
    Nat → List (List Cond) → List (List Cond) → Frame → Frame → R.G →
    Except PyErr (List (List Cond) × R.G)
  | _, [], new, _, _, g => .ok (new, g)
  | i, rule :: rest, new, pos, neg, g => do
    let (posGrow, posPrune, g1) := dfShuffledSplit R g pos (Arith.complement ps) rs
    let (negGrow, negPrune, g2) := dfShuffledSplit R g1 neg (Arith.complement ps) rs
    if posGrow.rows = [] then return (new, g2)
    else if stopEarly hp.lim new pos.rows.length neg.rows.length then return (new, g2)
    else
      let best ← optimizeChoiceDf fuel cands hp original originalDl i rule allPos allNeg
        posGrow posPrune negGrow negPrune
      let new := new.set i (if !condsIn best new then best else rule)
      let (pos', neg') ← rmCoveredRule rule pos neg
      if pos'.rows = [] then return (new, g2)
      else optimizeLoopDf fuel R cands hp ps rs original originalDl allPos allNeg (i + 1) rest new pos' neg' g2

/-- ripper.py 698-893: `_optimize_ruleset`. -/
def optimizeDf (fuel : Nat) (R : PyRandom) (cands : List Cond) (hp : Hyper) (rs : Option Int)
    (rules : List (List Cond)) (allPos allNeg : Frame) (g : R.G) :
    Except PyErr (List (List Cond) × R.G) := do
  let (_, originalDl) ← bestSubsetDf cands.length rules allPos allNeg
  match hp.pruneSize with
  | none => if rules = [] then return (rules, g) else .error .typeError
  | some ps => optimizeLoopDf fuel R cands hp ps rs rules originalDl allPos allNeg 0 rules rules allPos allNeg g

/-- ripper.py 265-311: stage 2 with `cn_optimize=False`. -/
def stage2Df (fuel : Nat) (R : PyRandom) (cands : List Cond) (hp : Hyper) (allPos allNeg : Frame) :
    Nat → List (List Cond) → R.G → Except PyErr (List (List Cond) × R.G)
  | 0, rules, g => .ok (rules, g)
  | n + 1, rules, g => do
    let (new, g') ← optimizeDf fuel R cands hp (hp.randomState.map (· + 100)) rules allPos allNeg g
    if n ≠ 0 && condsRulesetEq rules new then return (rules, g')
    else stage2Df fuel R cands hp allPos allNeg n new g'

/-- ripper.py 1103-1145: `_cover_remaining_positives`: the examples covered so far are removed first, and the new
candidates are appended to the old ones (an empty ruleset is falsy, so its candidates are forgotten). -/
def coverRemainingDf (fuel : Nat) (R : PyRandom) (S : SetOps) (cands : List Cond) (hp : Hyper)
    (rules : List (List Cond)) (pos neg : Frame) (g : R.G) :
    Except PyErr (List (List Cond) × List Cond × R.G) := do
  let (pos', neg') ← rmCoveredRuleset { rules := rules.map (fun c => { conds := c }) } pos neg
  if pos'.rows.length ≥ 1 then
    let cands' := updatedConds S (if rules = [] then none else some cands) pos' neg'
    let st ← ripperGrow fuel R cands' hp rules pos' neg' g
    return (st.rules, cands', st.g)
  else return (rules, cands, g)

/-- ripper.py 229-365: stages 1 to 4 with `cn_optimize=False`. -/
def ripperStagesDf (fuel : Nat) (R : PyRandom) (S : SetOps) (hp : Hyper) (old : Option (List Cond))
    (init : List (List Cond)) (pos neg : Frame) (g : R.G) : Except PyErr (List (List Cond) × R.G) := do
  let cands := updatedConds S old pos neg
  let st ← ripperGrow fuel R cands hp init pos neg g
  let (rules, g) ← stage2Df fuel R cands hp pos neg hp.k.toNat st.rules st.g
  let (rules, cands, g) ← coverRemainingDf fuel R S cands hp rules pos neg g
  let (rules, _) ← bestSubsetDf cands.length rules pos neg
  return (rules, g)

/-- ripper.py 115-390: `RIPPER.fit` with `cn_optimize=False` on preprocessed data. -/
def ripperFitPlain (fuel : Nat) (R : PyRandom) (S : SetOps) (hp : Hyper) (old : Option (List Cond))
    (init : List (List Cond)) (df : Frame) (cf : Feat) (pc : Val) (g : R.G) : Except PyErr (Fitted × R.G) := do
  if df.rows = [] then .error .valueError
  else if cf ∉ df.cols then .error .indexError
  else
    let (rules, g) ← ripperStagesDf fuel R S hp old init (posExamples df cf pc) (negExamples df cf pc) g
    let rs : Ruleset := { rules := rules.map (fun c => { conds := c }) }
    let sel := rs.selectedFeatures
    let rs : Ruleset := { rs with rules := removeDups Rule.sameKey rs.rules }
    let rs := rs.trimConds hp.lim.maxTotalConds
    let rs ← (match recalibrate rs df cf pc hp.alpha with | (rs, e) => raiseIf rs e)
    return ({ ruleset := rs, selected := sel, trainFeats := (df.dropCol cf).cols }, g)

/-! ### on classifier objects -/

/-- irep.py 94-235: `IREP.fit` with `cn_optimize=False` (cf. `Clf.irepFit`). -/
def Clf.irepFitPlain (fuel : Nat) (R : PyRandom) (S : SetOps) (F : PyFloat) (P : PandasCut) (d : FitData)
    (init : ModelArg) (g : R.G) : OnClf R.G := do
  let first ← pureCode init.early
  modify (fun c => { c with ruleset := some first })
  let (df, cf, pc, b) ← pureCode (preprocessTraining F P (← EStateM.get).nBins d)
  modify (fun c => { c with classFeat := some cf, posClass := some pc, binner := some b })
  let hp := (← EStateM.get).hyper
  let start ← pureCode init.toRuleset
  let pos := posExamples df.toFrame cf pc
  let neg := negExamples df.toFrame cf pc
  let cands := updatedConds S start.possible pos neg
  let st ← pureCode (irepGrow fuel R cands hp (start.rules.map Rule.conds) pos neg g)
  let rs : Ruleset := { rules := st.rules.map (fun c => { conds := c }), possible := some cands }
  modify (fun c => { c with
    ruleset := some rs
    selected := some rs.selectedFeatures
    trainFeats := some (df.toFrame.dropCol cf).cols })
  Clf.fitProbas df.toFrame cf pc
  modify (fun c => { c with classes := some .codes })
  Clf.tidy
  return st.g

/-- ripper.py 265-311: stage 2 with `cn_optimize=False`, storing each new ruleset. -/
def Clf.stage2Df (fuel : Nat) (R : PyRandom) (cands : List Cond) (pos neg : Frame) :
    Nat → List (List Cond) → R.G → OnClf (List (List Cond) × R.G)
  | 0, rules, g => return (rules, g)
  | n + 1, rules, g => do
    let hp := (← EStateM.get).hyper
    let (new, g') ← pureCode (optimizeDf fuel R cands hp (hp.randomState.map (· + 100)) rules pos neg g)
    if n ≠ 0 && condsRulesetEq rules new then return (rules, g')
    else
      Clf.setRules cands new
      Clf.stage2Df fuel R cands pos neg n new g'

/-- ripper.py 115-390: `RIPPER.fit` with `cn_optimize=False`. -/
def Clf.ripperFitPlain (fuel : Nat) (R : PyRandom) (S : SetOps) (F : PyFloat) (P : PandasCut) (d : FitData)
    (init : ModelArg) (g : R.G) : OnClf R.G := do
  let (df, cf, pc, b) ← pureCode (preprocessTraining F P (← EStateM.get).nBins d)
  modify (fun c => { c with classFeat := some cf, posClass := some pc, binner := some b })
  let hp := (← EStateM.get).hyper
  let start ← pureCode init.toRuleset
  let pos := posExamples df.toFrame cf pc
  let neg := negExamples df.toFrame cf pc
  let cands := updatedConds S start.possible pos neg
  let st ← pureCode (ripperGrow fuel R cands hp (start.rules.map Rule.conds) pos neg g)
  Clf.setRules cands st.rules
  let (rules, g) ← Clf.stage2Df fuel R cands pos neg hp.k.toNat st.rules st.g
  let (rules, cands, g) ← pureCode (coverRemainingDf fuel R S cands hp rules pos neg g)
  Clf.setRules cands rules
  let (rules, _) ← pureCode (bestSubsetDf cands.length rules pos neg)
  let rs : Ruleset := { rules := rules.map (fun c => { conds := c }) }
  modify (fun c => { c with
    ruleset := some rs
    selected := some rs.selectedFeatures
    trainFeats := some (df.toFrame.dropCol cf).cols })
  Clf.tidy
  Clf.fitProbas df.toFrame cf pc
  modify (fun c => { c with classes := some .codes })
  return g

end Witt
