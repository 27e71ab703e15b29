import Verif.Plain
import Verif.Verbose
/-
Training with `verbosity` above 0 and `cn_optimize=False`: the programs of Plain.lean with their `print` calls (cf.
Verbose.lean). `grow_rule` counts covered rows only to print the counts, and that can raise.
-/
namespace Witt

/-- `if verbosity >= level: print(f"... {len(rule.covers(df))} ...")` where counting may raise. -/
def sayCount (v level : Nat) (x : Except PyErr Nat) : Talk Unit :=
  if level ≤ v then do
    let n ← silently x
    say v level [.counts [n]]
  else pure ()

variable [Arith]

/-- base_functions.py 591-604: `best_successor` with its `print` (line 603; cf. `bestSuccessor`). -/
def bestSuccessorTalk (v : Nat) (rule possible : List Cond) (pos neg : Frame) : Talk (Option (List Cond)) := do
  let best ← silently (bestLoopM (fun s => gainDf rule s pos neg) (none, 1) (successors rule possible))
  sayRnd v 5 (rndGain best.2) [.rule best.1]
  return best.1

/-- One iteration of the loop of base_functions.py 42-62 (cf. `growStep`). -/
def growStepDfTalk (v : Nat) (possible : List Cond) (lim : Limits) (pos neg : Frame) (rule : List Cond) :
    Talk (Step (List Cond) (List Cond)) := do
  let nNeg ← silently (numCoveredC rule neg)
  if nNeg = 0 then return .done rule
  else do
    let nPos ← silently (if lim.minRuleSamples.isSome then numCoveredC rule pos else .ok 0)
    if userHalt lim rule nNeg nPos then return .done (haltRule lim rule)
    else
      match ← bestSuccessorTalk v rule possible pos neg with
      | none => return .done rule
      | some r => do
        sayCount v 4 (numCoveredC r neg)
        return .more r

/-- base_functions.py 65: the number printed by `grow_rule` at level 4. -/
def grownCount (r : List Cond) (pos neg : Frame) : Except PyErr Nat := do
  let n ← numCoveredC r neg
  let p ← numCoveredC r pos
  return n + p

/-- base_functions.py 25-68: `grow_rule` (cf. `growRule`). -/
def growRuleDfTalk (v fuel : Nat) (possible : List Cond) (lim : Limits) (pos neg : Frame) (initial : List Cond) :
    Talk (List Cond) := do
  say v 4 [.rule (some initial)]
  let r ← talkWhile (growStepDfTalk v possible lim pos neg) fuel initial
  if r ≠ [] then
    say v 2 [.rule (some r)]
    sayCount v 4 (grownCount r pos neg)
    return r
  else return r

/-! ### IREP -/

/-- One iteration of the loop of irep.py 259-333 (cf. `irepStep`). -/
def irepStepDfTalk (v fuel : Nat) (R : PyRandom) (cands : List Cond) (hp : Hyper) (st : FrameSt R) :
    Talk (Step (FrameSt R) (FrameSt R)) := do
  if st.pos.rows = [] then return .done st
  else if stopEarly hp.lim st.rules st.pos.rows.length st.neg.rows.length then return .done st
  else
    let ps := hp.irepPrune
    let (posGrow, posPrune, g1) := dfShuffledSplit R st.g st.pos (Arith.complement ps) hp.randomState
    let (negGrow, negPrune, g2) := dfShuffledSplit R g1 st.neg (Arith.complement ps) hp.randomState
    say v 2 ([.counts [posGrow.rows.length, posPrune.rows.length], .counts [negGrow.rows.length, negPrune.rows.length]] ++
      if ps = 0 then [.words] else [])
    let grown ← growRuleDfTalk v fuel cands hp.lim posGrow negGrow []
    if ps = 0 then do
      say v 2 [.rules (lastTwo (st.rules ++ [grown])), .words]
      let covered ← silently (condsCover grown st.pos)
      let pos' := st.pos.dropLabels covered.index
      say v 3 [.counts [pos'.rows.length, st.neg.rows.length], .words]
      return .more { rules := st.rules ++ [grown], pos := pos', neg := st.neg, g := g2 }
    else
      match ← pruneRuleTalk v (irepMetric posPrune negPrune) grown with
      | none => silently (.error .attributeError)
      | some pruned =>
        match ← silently (precisionDf pruned posPrune negPrune) with
        | none => return .done { st with g := g2 }
        | some q =>
          if q = 0 ∨ q < 1 / 2 then return .done { st with g := g2 }
          else do
            say v 2 [.rules (lastTwo (st.rules ++ [pruned])), .words]
            let (pos', neg') ← silently (rmCoveredRule pruned st.pos st.neg)
            say v 3 [.counts [pos'.rows.length, neg'.rows.length], .words]
            return .more { rules := st.rules ++ [pruned], pos := pos', neg := neg', g := g2 }

/-- irep.py 237-336: `_grow_ruleset` (cf. `irepGrow`). -/
def irepGrowDfTalk (v fuel : Nat) (R : PyRandom) (cands : List Cond) (hp : Hyper) (init : List (List Cond))
    (pos neg : Frame) (g : R.G) : Talk (FrameSt R) := do
  say v 2 [.words, .rules init, .words]
  talkWhile (irepStepDfTalk v fuel R cands hp) fuel { rules := init, pos := pos, neg := neg, g := g }

/-- irep.py 94-235: `IREP.fit` with `cn_optimize=False` on preprocessed data (cf. `irepFitPlain`). -/
def irepFitPlainTalk (v fuel : Nat) (R : PyRandom) (S : SetOps) (hp : Hyper) (old : Option (List Cond))
    (init : List (List Cond)) (df : Frame) (cf : Feat) (pc : Val) (g : R.G) : Talk (Fitted × R.G) := do
  say v 1 [.words, .rules init]
  if df.rows = [] then silently (.error .valueError)
  else if cf ∉ df.cols then silently (.error .indexError)
  else
    let cands := updatedConds S old (posExamples df cf pc) (negExamples df cf pc)
    say v 1 [.words]
    let st ← irepGrowDfTalk v fuel R cands hp init (posExamples df cf pc) (negExamples df cf pc) g
    say v 1 [.words, .rules st.rules]
    let rs : Ruleset := { rules := st.rules.map (fun c => { conds := c }), possible := some cands }
    let sel := rs.selectedFeatures
    let rs ← silently (match recalibrate rs df cf pc hp.alpha with | (rs, e) => raiseIf rs e)
    let rs : Ruleset := { rs with rules := removeDups Rule.sameKey rs.rules }
    let rs := rs.trimConds hp.lim.maxTotalConds
    return ({ ruleset := rs, selected := sel, trainFeats := (df.dropCol cf).cols }, st.g)

/-! ### RIPPER -/

/-- ripper.py 1281-1306: `_exceptions_bits` (cf. `exceptionsDf`). -/
def exceptionsDfTalk (v : Nat) (rules : List (List Cond)) (pos neg : Frame) : Talk Rat := do
  let x ← silently (exceptionsDf rules pos neg)
  say v 5 [.rules (rules.take 2), .value x]
  return x

/-- The first loop of ripper.py 1385-1397 (cf. `subsetDlsDf`). -/
def subsetDlsDfTalk (v n : Nat) (pos neg : Frame) (theory : Rat) (done : List (List Cond)) :
    List (List Cond) → Talk (List Rat)
  | [] => return []
  | r :: rs => do
    let t := Arith.addDl theory (← ruleTheoryTalk v n r)
    let e ← exceptionsDfTalk v (done ++ [r]) pos neg
    say v 5 [.value (Arith.addDl t e)]
    return Arith.addDl t e :: (← subsetDlsDfTalk v n pos neg t (done ++ [r]) rs)

/-- ripper.py 1379-1420: `_rs_total_bits` with `bestsubset_dl=True` (cf. `bestSubsetDf`; the total of the best subset is
computed with `verbosity=0`). -/
def bestSubsetDfTalk (v n : Nat) (rules : List (List Cond)) (pos neg : Frame) : Talk (List (List Cond) × Rat) := do
  say v 5 [.rules rules]
  let dls ← subsetDlsDfTalk v n pos neg Arith.zeroDl [] rules
  let mdl := mdlFilter none (rules.zip dls)
  say v 5 (dls.map .value ++ [.rules mdl])
  let x ← silently (totalBitsDf n mdl pos neg)
  say v 5 [.value x, .words]
  return (mdl, x)

/-- One iteration of the loop of ripper.py 457-555 (cf. `ripperStep`). -/
def ripperStepDfTalk (v fuel : Nat) (R : PyRandom) (cands : List Cond) (hp : Hyper) (allPos allNeg : Frame)
    (st : FrameRipSt R) : Talk (Step (FrameRipSt R) (FrameRipSt R)) := do
  if st.pos.rows = [] ∨ !Arith.within st.diff hp.dlAllowance then return .done st
  else if stopEarly hp.lim st.rules st.pos.rows.length st.neg.rows.length then return .done st
  else
    match hp.pruneSize with
    | none => silently (.error .typeError)
    | some ps =>
      let (posGrow, posPrune, g1) := dfShuffledSplit R st.g st.pos (Arith.complement ps) hp.randomState
      let (negGrow, negPrune, g2) := dfShuffledSplit R g1 st.neg (Arith.complement ps) hp.randomState
      say v 2 [.counts [posGrow.rows.length, posPrune.rows.length], .counts [negGrow.rows.length, negPrune.rows.length]]
      if posGrow.rows = [] then return .done { st with g := g2 }
      else
        let grown ← growRuleDfTalk v fuel cands hp.lim posGrow negGrow []
        if grown = [] then return .done { st with g := g2 }
        else
          match ← pruneRuleTalk v (ripperGrowMetric posPrune negPrune) grown with
          | none => silently (.error .attributeError)
          | some pruned =>
            let rules := st.rules ++ [pruned]
            say v 2 [.rules (lastTwo rules), .words]
            let ruleDl ← ruleTheoryTalk v cands.length pruned
            let dataDl ← exceptionsDfTalk v rules allPos allNeg
            let (dl, d) := ripDl st.dl ruleDl dataDl
            say v 3 [.value ruleDl, .value dl.1, .value dataDl, .value (Arith.addDl dl.1 dataDl),
              .value ((st.dl.map Prod.snd).getD (Arith.addDl dl.1 dataDl)), .value (d.getD st.diff), .value hp.dlAllowance]
            let (pos', neg') ← silently (rmCoveredRule pruned st.pos st.neg)
            say v 3 [.counts [pos'.rows.length, neg'.rows.length], .words]
            return .more { rules := rules, pos := pos', neg := neg', dl := some dl,
                           diff := d.getD st.diff, g := g2 }

/-- ripper.py 428-557: `_grow_ruleset` (cf. `ripperGrow`). -/
def ripperGrowDfTalk (v fuel : Nat) (R : PyRandom) (cands : List Cond) (hp : Hyper) (init : List (List Cond))
    (pos neg : Frame) (g : R.G) : Talk (FrameRipSt R) := do
  say v 2 [.words, .rules init, .words]
  talkWhile (ripperStepDfTalk v fuel R cands hp pos neg) fuel
    { rules := init, pos := pos, neg := neg, dl := none, diff := Arith.zeroDl, g := g }

/-- ripper.py 736-871: the choice for rule `i` (cf. `optimizeChoiceDf`; the summary of lines 831-871 comes in two forms,
without and with the lengths, which are shown from level 3 on). -/
def optimizeChoiceDfTalk (v fuel : Nat) (cands : List Cond) (hp : Hyper) (original : List (List Cond))
    (originalDl : Rat) (i : Nat) (rule : List Cond) (allPos allNeg : Frame)
    (posGrow posPrune negGrow negPrune : Frame) : Talk (List Cond) := do
  let lim : Limits := { minRuleSamples := hp.lim.minRuleSamples }
  let metric : List Cond → Except PyErr (Option Rat) :=
    fun r => rulesetAccuracy (iReplaced original i (some r)) posPrune negPrune
  say v 4 [.counts [i, original.length]]
  let gRep ← growRuleDfTalk v fuel cands lim posGrow negGrow []
  let prRep ← pruneRuleOnTalk v metric gRep (iReplaced original i (some gRep)) i
  say v 3 [.rule (some gRep), .rule prRep, .counts [i, original.length]]
  let gRev ← growRuleDfTalk v fuel cands lim posGrow negGrow rule
  let prRev ← pruneRuleOnTalk v metric gRev (iReplaced original i (some gRev)) i
  say v 3 [.rule (some gRep), .rule prRep, .words, .rule prRep]
  let isRule : Option (List Cond) → Bool := fun o => match o with
    | none => false
    | some r => condsEq r rule
  let repDl ← (if isRule prRep then pure originalDl
               else do return (← bestSubsetDfTalk v cands.length (iReplaced original i prRep) allPos allNeg).2)
  say v 3 [.rule prRev]
  let revDl ← (if isRule prRev then pure originalDl
               else do return (← bestSubsetDfTalk v cands.length (iReplaced original i prRev) allPos allNeg).2)
  let best ← silently (argmin (fun a b => decide (a < b)) [originalDl, repDl, revDl])
  say v 2 [.counts [i + 1, original.length], .rule (some rule), .rule prRep, .rule prRev]
  say v 3 [.value originalDl, .value repDl, .value revDl]
  match best with
  | 0 => return rule
  | 1 => match prRep with
    | some r => return r
    | none => silently (.error .attributeError)
  | _ => match prRev with
    | some r => return r
    | none => silently (.error .attributeError)

/-- The loop of ripper.py 736-891 (cf. `optimizeLoopDf`). -/
def optimizeLoopDfTalk (v fuel : Nat) (R : PyRandom) (cands : List Cond) (hp : Hyper) (ps : Rat) (rs : Option Int)
    (original : List (List Cond)) (originalDl : Rat) (allPos allNeg : Frame) :
    Nat → List (List Cond) → List (List Cond) → Frame → Frame → R.G →
    Talk (List (List Cond) × R.G)
  | _, [], new, _, _, g => return (new, g)
  | i, rule :: rest, new, pos, neg, g => do
    let (posGrow, posPrune, g1) := dfShuffledSplit R g pos (Arith.complement ps) rs
    let (negGrow, negPrune, g2) := dfShuffledSplit R g1 neg (Arith.complement ps) rs
    if posGrow.rows = [] then return (new, g2)
    else if stopEarly hp.lim new pos.rows.length neg.rows.length then return (new, g2)
    else
      let best ← optimizeChoiceDfTalk v fuel cands hp original originalDl i rule allPos allNeg
        posGrow posPrune negGrow negPrune
      say v 2 ([.rule (some best)] ++ (if condsIn best new then [.words] else []) ++ [.words])
      let new := new.set i (if !condsIn best new then best else rule)
      let (pos', neg') ← silently (rmCoveredRule rule pos neg)
      say v 3 [.counts [pos'.rows.length, neg'.rows.length], .words]
      if pos'.rows = [] then return (new, g2)
      else optimizeLoopDfTalk v fuel R cands hp ps rs original originalDl allPos allNeg (i + 1) rest new pos' neg' g2

/-- ripper.py 698-893: `_optimize_ruleset` (cf. `optimizeDf`). -/
def optimizeDfTalk (v fuel : Nat) (R : PyRandom) (cands : List Cond) (hp : Hyper) (rs : Option Int)
    (rules : List (List Cond)) (allPos allNeg : Frame) (g : R.G) : Talk (List (List Cond) × R.G) := do
  say v 2 [.words]
  say v 4 [.words]
  let (_, originalDl) ← bestSubsetDfTalk v cands.length rules allPos allNeg
  say v 3 [.value originalDl, .words]
  match hp.pruneSize with
  | none => if rules = [] then return (rules, g) else silently (.error .typeError)
  | some ps => optimizeLoopDfTalk v fuel R cands hp ps rs rules originalDl allPos allNeg 0 rules rules allPos allNeg g

/-- ripper.py 265-311: stage 2 (cf. `stage2Df`). -/
def stage2DfTalk (v fuel : Nat) (R : PyRandom) (cands : List Cond) (hp : Hyper) (allPos allNeg : Frame) :
    Nat → List (List Cond) → R.G → Talk (List (List Cond) × R.G)
  | 0, rules, g => return (rules, g)
  | n + 1, rules, g => do
    say v 1 [.counts [hp.k - n, hp.k]]
    let (new, g') ← optimizeDfTalk v fuel R cands hp (hp.randomState.map (· + 100)) rules allPos allNeg g
    say v 1 [.words]
    say v 2 [.counts (((rules.zip new).zipIdx.filter (fun p => !condsEq p.1.1 p.1.2)).map (fun p => (p.2 : Int)))]
    say v 1 [.rules new, .words]
    if n ≠ 0 && condsRulesetEq rules new then do
      say v 1 [.counts [hp.k - n]]
      return (rules, g')
    else stage2DfTalk v fuel R cands hp allPos allNeg n new g'

/-- ripper.py 1103-1145: `_cover_remaining_positives` (cf. `coverRemainingDf`). -/
def coverRemainingDfTalk (v fuel : Nat) (R : PyRandom) (S : SetOps) (cands : List Cond) (hp : Hyper)
    (rules : List (List Cond)) (pos neg : Frame) (g : R.G) : Talk (List (List Cond) × List Cond × R.G) := do
  let (pos', neg') ← silently (rmCoveredRuleset { rules := rules.map (fun c => { conds := c }) } pos neg)
  if pos'.rows.length ≥ 1 then
    say v 2 [.counts [pos'.rows.length]]
    let cands' := updatedConds S (if rules = [] then none else some cands) pos' neg'
    let st ← ripperGrowDfTalk v fuel R cands' hp rules pos' neg' g
    say v 1 [.words, .rules st.rules, .words]
    return (st.rules, cands', st.g)
  else do
    say v 1 [.words]
    return (rules, cands, g)

/-- ripper.py 229-365: stages 1 to 4 with `cn_optimize=False` (cf. `ripperStagesDf`). -/
def ripperStagesDfTalk (v fuel : Nat) (R : PyRandom) (S : SetOps) (hp : Hyper) (old : Option (List Cond))
    (init : List (List Cond)) (pos neg : Frame) (g : R.G) : Talk (List (List Cond) × R.G) := do
  let cands := updatedConds S old pos neg
  let st ← ripperGrowDfTalk v fuel R cands hp init pos neg g
  say v 1 [.words, .rules st.rules, .words]
  let (rules, g) ← stage2DfTalk v fuel R cands hp pos neg hp.k.toNat st.rules st.g
  let (rules, cands, g) ← coverRemainingDfTalk v fuel R S cands hp rules pos neg g
  say v 2 [.words]
  let (rules, _) ← bestSubsetDfTalk v cands.length rules pos neg
  return (rules, g)

/-- ripper.py 115-390: `RIPPER.fit` with `cn_optimize=False` on preprocessed data (cf. `ripperFitPlain`). -/
def ripperFitPlainTalk (v fuel : Nat) (R : PyRandom) (S : SetOps) (hp : Hyper) (old : Option (List Cond))
    (init : List (List Cond)) (df : Frame) (cf : Feat) (pc : Val) (g : R.G) : Talk (Fitted × R.G) := do
  if df.rows = [] then silently (.error .valueError)
  else if cf ∉ df.cols then silently (.error .indexError)
  else
    let (rules, g) ← ripperStagesDfTalk v fuel R S hp old init (posExamples df cf pc) (negExamples df cf pc) g
    say v 1 [.words, .rules rules, .words]
    let rs : Ruleset := { rules := rules.map (fun c => { conds := c }) }
    let sel := rs.selectedFeatures
    let rs : Ruleset := { rs with rules := removeDups Rule.sameKey rs.rules }
    let rs := rs.trimConds hp.lim.maxTotalConds
    let rs ← silently (match recalibrate rs df cf pc hp.alpha with | (rs, e) => raiseIf rs e)
    return ({ ruleset := rs, selected := sel, trainFeats := (df.dropCol cf).cols }, g)

end Witt
