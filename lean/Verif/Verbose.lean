import Verif.Ripper
/-
Training with `verbosity` above 0 (`cn_optimize=True`): the programs of Train.lean, Irep.lean and Ripper.lean with their
`print` calls. A line that is printed is given by the values in it; the wording and the layout are left out. The arguments of
a `print` are evaluated, and `utils.rnd` can raise while they are.
-/
namespace Witt

/-- The values a printed line is made of. -/
inductive Said
  /-- fixed words only -/
  | words
  /-- a rule (None for a rule that is None) -/
  | rule (r : Option (List Cond))
  /-- a condition (None if none was found) -/
  | cond (c : Option Cond)
  /-- a ruleset -/
  | rules (rs : List (List Cond))
  /-- whole numbers -/
  | counts (ns : List Int)
  /-- a number shortened by `utils.rnd` -/
  | value (x : Rat)

/-- A printed line: the least `verbosity` that shows it, and the values. -/
structure Line where
  level : Nat
  said : Said

/-- Code that prints (what was printed before an exception stays printed). -/
abbrev Talk := EStateM PyErr (List Line)

/-- What stands on the screen at the end of a run. -/
def screen {α : Type} : EStateM.Result PyErr (List Line) α → List Line
  | .ok _ log => log
  | .error _ log => log

/-- Code that prints nothing. -/
def silently {α : Type} (x : Except PyErr α) : Talk α := fun w =>
  match x with
  | .ok a => .ok a w
  | .error e => .error e w

/-- `if verbosity >= level: print(...)`, several lines. -/
def say (v level : Nat) (what : List Said) : Talk Unit := fun w =>
  .ok () (w ++ if level ≤ v then what.map (fun s => { level := level, said := s }) else [])

/-- A `while` loop whose body prints (cf. `pyWhile`). -/
def talkWhile {S A : Type} (body : S → Talk (Step S A)) : Nat → S → Talk A
  | 0, _ => silently (.error .diverged)
  | fuel + 1, s => do
    match ← body s with
    | .more s' => talkWhile body fuel s'
    | .done a => return a

/-- utils.py 52-71: `rnd` of a prune value: None cannot be compared with 1. -/
def rndOpt : Option Rat → Except PyErr Rat
  | none => .error .typeError
  | some x => .ok x

/-- utils.py 52-71: `rnd` of a gain, given by its image (`Arith.gain`): `int(float("-inf"))` is an OverflowError, and the
image of `float("-inf")` is 0. -/
def rndGain (g : Rat) : Except PyErr Rat := if g ≤ 0 then .error .overflow else .ok g

/-- `if verbosity >= level: print(f"... {rnd(x)} ...")` where `rnd(x)` may raise. -/
def sayRnd (v level : Nat) (x : Except PyErr Rat) (what : List Said) : Talk Unit :=
  if level ≤ v then do
    let y ← silently x
    say v level (.value y :: what)
  else pure ()

variable [Arith]

/-- base_functions.py 607-623: `best_rule_successor_cn` with its `print` (line 622). -/
def bestRuleSuccessorTalk (v : Nat) (cn : CatNap) (rule : List Cond) (pos neg : List Label) :
    Talk (Option (List Cond)) := do
  let best := bestLoop (fun c => gainCn cn c (cn.ruleCovers rule (some pos)) (cn.ruleCovers rule (some neg))) (none, 0)
    cn.conds
  sayRnd v 5 (rndGain best.2) [.cond best.1]
  match best with
  | (some c, g) => return if 1 < g then some (rule ++ [c]) else none
  | (none, _) => return none

/-- One iteration of the loop of base_functions.py 88-103 (cf. `growStepCn`). -/
def growStepTalk (v : Nat) (cn : CatNap) (lim : Limits) (pos neg : List Label) (rule : List Cond) :
    Talk (Step (List Cond) (List Cond)) := do
  let nNeg := (cn.ruleCovers rule (some neg)).length
  if nNeg = 0 then return .done rule
  else if userHalt lim rule nNeg (cn.ruleCovers rule (some pos)).length then return .done (haltRule lim rule)
  else
    match ← bestRuleSuccessorTalk v cn rule pos neg with
    | none => return .done rule
    | some r => do
      say v 4 [.counts [(cn.ruleCovers r (some neg)).length]]
      return .more r

/-- base_functions.py 70-112: `grow_rule_cn` (cf. `growRuleCn`). -/
def growRuleTalk (v fuel : Nat) (cn : CatNap) (lim : Limits) (pos neg : List Label) (initial : List Cond) :
    Talk (List Cond) := do
  say v 4 [.rule (some initial)]
  let r ← talkWhile (growStepTalk v cn lim pos neg) fuel initial
  if r ≠ [] then
    say v 2 [.rule (some r)]
    say v 4 [.counts [(cn.ruleCovers r (some neg)).length + (cn.ruleCovers r (some pos)).length]]
    return r
  else return r

/-- The loop of base_functions.py 240-251 (cf. `pruneLoop`). -/
def pruneLoopTalk (v : Nat) (metric : List Cond → Except PyErr (Option Rat)) (rule : List Cond) :
    Nat → List Cond × Rat → Talk (Option (List Cond))
  | 0, best => return some best.1
  | n + 1, best => do
    let x ← silently (metric (rule.take (n + 1)))
    sayRnd v 5 (rndOpt x) [.rule (some (rule.take (n + 1)))]
    match x with
    | none => return none
    | some y => pruneLoopTalk v metric rule n (if best.2 ≤ y then (rule.take (n + 1), y) else best)

/-- base_functions.py 204-258: `prune_rule_cn` without a ruleset (cf. `pruneRule`). -/
def pruneRuleTalk (v : Nat) (metric : List Cond → Except PyErr (Option Rat)) (rule : List Cond) :
    Talk (Option (List Cond)) := do
  if rule = [] then return some rule
  else do
    match ← pruneLoopTalk v metric rule rule.length (rule, 0) with
    | none => return none
    | some r => do
      say v 2 (if r.length ≠ rule.length then [.rule (some r)] else [.words])
      return some r

/-- The loop of base_functions.py 274-285 (cf. `pruneLoopRs`). -/
def pruneLoopRsTalk (v : Nat) (metric : List Cond → Except PyErr (Option Rat)) (rule : List Cond) :
    Nat → Option (List Cond) × Rat → Talk (Option (List Cond))
  | 0, best => match best.1 with
    | some b => return some b
    | none => silently (.error .unboundLocal)
  | n + 1, best => do
    let x ← silently (metric (rule.take (n + 1)))
    sayRnd v 5 (rndOpt x) [.rule (some (rule.take (n + 1)))]
    match x with
    | none => return none
    | some y => pruneLoopRsTalk v metric rule n (if best.2 ≤ y then (some (rule.take (n + 1)), y) else best)

/-- base_functions.py 261-285: `prune_rule_cn` with `eval_index_on_ruleset=(i, ruleset)` (cf. `pruneRuleOn`). -/
def pruneRuleOnTalk (v : Nat) (metric : List Cond → Except PyErr (Option Rat)) (rule : List Cond)
    (rules : List (List Cond)) (i : Nat) : Talk (Option (List Cond)) :=
  if rule = [] then return some rule
  else match rules[i]? with
    | none => silently (.error .indexError)
    | some r =>
      if !condsEq r rule then silently (.error .valueError)
      else pruneLoopRsTalk v metric r r.length (none, 0)

/-! ### IREP -/

/-- `ruleset.truncstr(direction='right')`, base.py 43-59: the last two rules are shown. -/
def lastTwo (rules : List (List Cond)) : List (List Cond) := rules.drop (rules.length - 2)

/-- One iteration of the loop of irep.py 360-448 (cf. `irepStepCn`). -/
def irepStepTalk (v fuel : Nat) (R : PyRandom) (cn : CatNap) (hp : Hyper) (st : GrowSt R) :
    Talk (Step (GrowSt R) (GrowSt R)) := do
  if st.pos = [] then return .done st
  else if stopEarly hp.lim st.rules st.pos.length st.neg.length then return .done st
  else
    let ps := hp.irepPrune
    let (posGrow, posPrune, g1) := randomSplit R st.g st.pos (Arith.complement ps) hp.randomState
    let (negGrow, negPrune, g2) := randomSplit R g1 st.neg (Arith.complement ps) hp.randomState
    say v 2 ([.counts [posGrow.length, posPrune.length], .counts [negGrow.length, negPrune.length]] ++
      if ps = 0 then [.words] else [])
    let grown ← growRuleTalk v fuel cn hp.lim posGrow negGrow []
    if ps = 0 then do
      say v 2 [.rules (lastTwo (st.rules ++ [grown])), .words]
      let pos' := setDiff st.pos (cn.ruleCovers grown (some st.pos))
      say v 3 [.counts [pos'.length, st.neg.length], .words]
      return .more { rules := st.rules ++ [grown], pos := pos', neg := st.neg, g := g2 }
    else
      match ← pruneRuleTalk v (irepMetricCn cn posPrune negPrune) grown with
      | none => silently (.error .attributeError)
      | some pruned =>
        match rulePrecisionCn cn pruned posPrune negPrune with
        | none => return .done { st with g := g2 }
        | some q =>
          if q = 0 ∨ q < 1 / 2 then return .done { st with g := g2 }
          else do
            say v 2 [.rules (lastTwo (st.rules ++ [pruned])), .words]
            let (pos', neg') := rmRuleCoversCn cn pruned st.pos st.neg
            say v 3 [.counts [pos'.length, neg'.length], .words]
            return .more { rules := st.rules ++ [pruned], pos := pos', neg := neg', g := g2 }

/-- irep.py 338-451: `_grow_ruleset_cn` (cf. `irepGrowCn`; `print(initial_model)` is left out). -/
def irepGrowTalk (v fuel : Nat) (R : PyRandom) (cn : CatNap) (hp : Hyper) (init : List (List Cond))
    (pos neg : List Label) (g : R.G) : Talk (GrowSt R) := do
  say v 2 [.words, .rules init, .words]
  talkWhile (irepStepTalk v fuel R cn hp) fuel { rules := init, pos := pos, neg := neg, g := g }

/-- irep.py 94-235: `IREP.fit` with `cn_optimize=True` on preprocessed data (cf. `irepFit`). -/
def irepFitTalk (v fuel : Nat) (R : PyRandom) (hp : Hyper) (init : List (List Cond)) (df : Frame) (cf : Feat)
    (pc : Val) (g : R.G) : Talk (Fitted × R.G) := do
  say v 1 [.words, .rules init]
  if df.rows = [] then silently (.error .valueError)
  else if cf ∉ df.cols then silently (.error .indexError)
  else
    let cn ← silently (CatNap.build df cf)
    say v 1 [.words]
    let st ← irepGrowTalk v fuel R cn hp init (labelSet (posRows df cf pc).index)
      (labelSet (negRows df cf pc).index) g
    say v 1 [.words, .rules st.rules]
    let rs : Ruleset := { rules := st.rules.map (fun c => { conds := c }), possible := some cn.conds }
    let sel := rs.selectedFeatures
    let rs ← silently (match recalibrate rs df cf pc hp.alpha with | (rs, e) => raiseIf rs e)
    let rs : Ruleset := { rs with rules := removeDups Rule.sameKey rs.rules }
    let rs := rs.trimConds hp.lim.maxTotalConds
    return ({ ruleset := rs, selected := sel, trainFeats := (df.dropCol cf).cols }, st.g)

/-! ### RIPPER -/

/-- ripper.py 1240-1262: `_r_theory_bits` (cf. `ruleTheory`; the printed number is the length before the floor of 1 bit,
here: after it). -/
def ruleTheoryTalk (v n : Nat) (r : List Cond) : Talk Rat := do
  let x ← silently (ruleTheory n r.length)
  say v 5 [.rule (some r), .counts [max r.length 1, n], .value x]
  return x

/-- ripper.py 1309-1332: `_exceptions_bits_cn` (cf. `exceptionsCn`). -/
def exceptionsTalk (v : Nat) (cn : CatNap) (rules : List (List Cond)) (pos neg : List Label) : Talk Rat := do
  let x ← silently (exceptionsCn cn rules pos neg)
  say v 5 [.rules (rules.take 2), .value x]
  return x

/-- The first loop of ripper.py 1478-1490 (cf. `subsetDls`). -/
def subsetDlsTalk (v : Nat) (cn : CatNap) (pos neg : List Label) (theory : Rat) (done : List (List Cond)) :
    List (List Cond) → Talk (List Rat)
  | [] => return []
  | r :: rs => do
    let t := Arith.addDl theory (← ruleTheoryTalk v cn.conds.length r)
    let e ← exceptionsTalk v cn (done ++ [r]) pos neg
    say v 5 [.value (Arith.addDl t e)]
    return Arith.addDl t e :: (← subsetDlsTalk v cn pos neg t (done ++ [r]) rs)

/-- ripper.py 1472-1518: `_rs_total_bits_cn` with `bestsubset_dl=True` (cf. `bestSubsetCn`; the total of the best subset is
computed with `verbosity=0`). -/
def bestSubsetTalk (v : Nat) (cn : CatNap) (rules : List (List Cond)) (pos neg : List Label) :
    Talk (List (List Cond) × Rat) := do
  say v 5 [.rules rules]
  let dls ← subsetDlsTalk v cn pos neg Arith.zeroDl [] rules
  let mdl := mdlFilter none (rules.zip dls)
  say v 5 (dls.map .value ++ [.rules mdl])
  let x ← silently (totalBitsCn cn mdl pos neg)
  say v 5 [.value x, .words]
  return (mdl, x)

/-- One iteration of the loop of ripper.py 588-694 (cf. `ripperStepCn`). -/
def ripperStepTalk (v fuel : Nat) (R : PyRandom) (cn : CatNap) (hp : Hyper) (allPos allNeg : List Label)
    (st : RipSt R) : Talk (Step (RipSt R) (RipSt R)) := do
  if st.pos = [] ∨ !Arith.within st.diff hp.dlAllowance then return .done st
  else if stopEarly hp.lim st.rules st.pos.length st.neg.length then return .done st
  else
    match hp.pruneSize with
    | none => silently (.error .typeError)
    | some ps =>
      let (posGrow, posPrune, g1) := randomSplit R st.g st.pos (Arith.complement ps) hp.randomState
      let (negGrow, negPrune, g2) := randomSplit R g1 st.neg (Arith.complement ps) hp.randomState
      say v 2 [.counts [posGrow.length, posPrune.length], .counts [negGrow.length, negPrune.length]]
      if posGrow = [] then return .done { st with g := g2 }
      else
        let grown ← growRuleTalk v fuel cn hp.lim posGrow negGrow []
        if grown = [] then return .done { st with g := g2 }
        else
          match ← (if ps ≠ 0 then pruneRuleTalk v (ripperGrowMetricCn cn posPrune negPrune) grown
                   else return some grown) with
          | none => silently (.error .attributeError)
          | some pruned =>
            let rules := st.rules ++ [pruned]
            say v 2 [.rules (lastTwo rules), .words]
            let ruleDl ← ruleTheoryTalk v cn.conds.length pruned
            let dataDl ← exceptionsTalk v cn rules allPos allNeg
            let (dl, d) := ripDl st.dl ruleDl dataDl
            say v 3 [.value ruleDl, .value dl.1, .value dataDl, .value (Arith.addDl dl.1 dataDl),
              .value ((st.dl.map Prod.snd).getD (Arith.addDl dl.1 dataDl)), .value (d.getD st.diff), .value hp.dlAllowance]
            let (pos', neg') := rmRuleCoversCn cn pruned st.pos st.neg
            say v 3 [.counts [pos'.length, neg'.length], .words]
            return .more { rules := rules, pos := pos', neg := neg', dl := some dl,
                           diff := d.getD st.diff, g := g2 }

/-- ripper.py 559-696: `_grow_ruleset_cn` (cf. `ripperGrowCn`). -/
def ripperGrowTalk (v fuel : Nat) (R : PyRandom) (cn : CatNap) (hp : Hyper) (init : List (List Cond))
    (pos neg : List Label) (g : R.G) : Talk (RipSt R) := do
  say v 2 [.words, .rules init, .words]
  talkWhile (ripperStepTalk v fuel R cn hp pos neg) fuel
    { rules := init, pos := pos, neg := neg, dl := none, diff := Arith.zeroDl, g := g }

/-- ripper.py 930-1081: the choice for rule `i` (cf. `optimizeChoice`; the summary of lines 1049-1081 comes in two
forms, without and with the lengths, which are shown from level 3 on). -/
def optimizeChoiceTalk (v fuel : Nat) (cn : CatNap) (hp : Hyper) (original : List (List Cond))
    (originalDl : Rat) (i : Nat) (rule : List Cond) (allPos allNeg : List Label)
    (posGrow posPrune negGrow negPrune : List Label) : Talk (List Cond) := do
  let lim : Limits := { minRuleSamples := hp.lim.minRuleSamples }
  say v 4 [.counts [i, original.length]]
  let gRep ← growRuleTalk v fuel cn lim posGrow negGrow []
  let prRep ← pruneRuleOnTalk v (ripperOptMetricCn cn posPrune negPrune) gRep
    (iReplaced original i (some gRep)) i
  say v 3 [.rule (some gRep), .rule prRep, .counts [i, original.length]]
  let gRev ← growRuleTalk v fuel cn lim posGrow negGrow rule
  let prRev ← pruneRuleOnTalk v (ripperOptMetricCn cn posPrune negPrune) gRev
    (iReplaced original i (some gRev)) i
  say v 3 [.rule (some gRep), .rule prRep, .words, .rule prRep]
  let isRule : Option (List Cond) → Bool := fun o => match o with
    | none => false
    | some r => condsEq r rule
  let repDl ← silently (if isRule prRep then .ok originalDl
               else totalBitsCn cn (iReplaced original i prRep) allPos allNeg)
  say v 3 [.rule prRev]
  let revDl ← silently (if isRule prRev then .ok originalDl
               else totalBitsCn cn (iReplaced original i prRev) allPos allNeg)
  let best ← silently (argmin (fun a b => decide (a < b)) [originalDl, repDl, revDl])
  say v 2 [.counts [i + 1, original.length], .rule (some rule), .rule prRep, .rule prRev]
  say v 3 [.value originalDl, .value repDl, .value revDl]
  match best with
  | 0 => return rule
  | 1 => match prRep with
    | some r => return r
    | none => silently (.error .attributeError)
  | _ => match prRev with
    | some r => return r
    | none => silently (.error .attributeError)

/-- The loop of ripper.py 930-1099 (cf. `optimizeLoop`). -/
def optimizeLoopTalk (v fuel : Nat) (R : PyRandom) (cn : CatNap) (hp : Hyper) (ps : Rat) (rs : Option Int)
    (original : List (List Cond)) (originalDl : Rat) (allPos allNeg : List Label) :
    Nat → List (List Cond) → List (List Cond) → List Label → List Label → R.G →
    Talk (List (List Cond) × R.G)
  | _, [], new, _, _, g => return (new, g)
  | i, rule :: rest, new, pos, neg, g => do
    let (posGrow, posPrune, g1) := randomSplit R g pos (Arith.complement ps) rs
    let (negGrow, negPrune, g2) := randomSplit R g1 neg (Arith.complement ps) rs
    if posGrow = [] then return (new, g2)
    else if stopEarly hp.lim new pos.length neg.length then return (new, g2)
    else
      let best ← optimizeChoiceTalk v fuel cn hp original originalDl i rule allPos allNeg
        posGrow posPrune negGrow negPrune
      say v 2 ([.rule (some best)] ++ (if condsIn best new then [.words] else []) ++ [.words])
      let new := new.set i (if !condsIn best new then best else rule)
      let (pos', neg') := rmRuleCoversCn cn rule pos neg
      say v 3 [.counts [pos'.length, neg'.length], .words]
      if pos' = [] then return (new, g2)
      else optimizeLoopTalk v fuel R cn hp ps rs original originalDl allPos allNeg (i + 1) rest new pos' neg' g2

/-- ripper.py 895-1101: `_optimize_ruleset_cn` (cf. `optimizeCn`). -/
def optimizeTalk (v fuel : Nat) (R : PyRandom) (cn : CatNap) (hp : Hyper) (rs : Option Int)
    (rules : List (List Cond)) (allPos allNeg : List Label) (g : R.G) :
    Talk (List (List Cond) × R.G) := do
  say v 2 [.words]
  say v 4 [.words]
  let (_, originalDl) ← bestSubsetTalk v cn rules allPos allNeg
  say v 3 [.value originalDl, .words]
  match hp.pruneSize with
  | none => if rules = [] then return (rules, g) else silently (.error .typeError)
  | some ps => optimizeLoopTalk v fuel R cn hp ps rs rules originalDl allPos allNeg 0 rules rules allPos allNeg g

/-- ripper.py 265-311: stage 2 (cf. `stage2`): the rules that an iteration changed are listed at level 2. -/
def stage2Talk (v fuel : Nat) (R : PyRandom) (cn : CatNap) (hp : Hyper) (allPos allNeg : List Label) :
    Nat → List (List Cond) → R.G → Talk (List (List Cond) × R.G)
  | 0, rules, g => return (rules, g)
  | n + 1, rules, g => do
    say v 1 [.counts [hp.k - n, hp.k]]
    let (new, g') ← optimizeTalk v fuel R cn hp (hp.randomState.map (· + 100)) rules allPos allNeg g
    say v 1 [.words]
    say v 2 [.counts (((rules.zip new).zipIdx.filter (fun p => !condsEq p.1.1 p.1.2)).map (fun p => (p.2 : Int)))]
    say v 1 [.rules new, .words]
    if n ≠ 0 && condsRulesetEq rules new then do
      say v 1 [.counts [hp.k - n]]
      return (rules, g')
    else stage2Talk v fuel R cn hp allPos allNeg n new g'

/-- ripper.py 1147-1185: `_cover_remaining_positives_cn` (cf. `coverRemainingCn`). -/
def coverRemainingTalk (v fuel : Nat) (R : PyRandom) (cn : CatNap) (hp : Hyper) (rules : List (List Cond))
    (pos neg : List Label) (g : R.G) : Talk (List (List Cond) × R.G) := do
  if pos.length ≥ 1 then
    say v 2 [.counts [pos.length]]
    let st ← ripperGrowTalk v fuel R cn hp rules pos neg g
    say v 1 [.words, .rules st.rules, .words]
    return (st.rules, st.g)
  else do
    say v 1 [.words]
    return (rules, g)

/-- ripper.py 229-365: stages 1 to 4 (cf. `ripperStages`). -/
def ripperStagesTalk (v fuel : Nat) (R : PyRandom) (cn : CatNap) (hp : Hyper) (init : List (List Cond))
    (pos neg : List Label) (g : R.G) : Talk (List (List Cond) × R.G) := do
  let st ← ripperGrowTalk v fuel R cn hp init pos neg g
  say v 1 [.words, .rules st.rules, .words]
  let (rules, g) ← stage2Talk v fuel R cn hp pos neg hp.k.toNat st.rules st.g
  let (rules, g) ← coverRemainingTalk v fuel R cn hp rules pos neg g
  say v 2 [.words]
  let (rules, _) ← bestSubsetTalk v cn rules pos neg
  return (rules, g)

/-- ripper.py 115-390: `RIPPER.fit` with `cn_optimize=True` on preprocessed data (cf. `ripperFit`). -/
def ripperFitTalk (v fuel : Nat) (R : PyRandom) (hp : Hyper) (init : List (List Cond)) (df : Frame) (cf : Feat)
    (pc : Val) (g : R.G) : Talk (Fitted × R.G) := do
  if df.rows = [] then silently (.error .valueError)
  else if cf ∉ df.cols then silently (.error .indexError)
  else
    let cn ← silently (CatNap.build df cf)
    let (rules, g) ← ripperStagesTalk v fuel R cn hp init (labelSet (posRows df cf pc).index)
      (labelSet (negRows df cf pc).index) g
    say v 1 [.words, .rules rules, .words]
    let rs : Ruleset := { rules := rules.map (fun c => { conds := c }) }
    let sel := rs.selectedFeatures
    let rs : Ruleset := { rs with rules := removeDups Rule.sameKey rs.rules }
    let rs := rs.trimConds hp.lim.maxTotalConds
    let rs ← silently (match recalibrate rs df cf pc hp.alpha with | (rs, e) => raiseIf rs e)
    return ({ ruleset := rs, selected := sel, trainFeats := (df.dropCol cf).cols }, g)

end Witt
