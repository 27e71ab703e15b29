import Verif.Irep
/-
RIPPER training (wittgenstein/ripper.py), `cn_optimize=True` (the default).
Description lengths (bits) are added, subtracted and compared with `Arith`; `Arith.exact` represents them by `2^(2*bits)`
(bridge theorems in Props/Bits.lean).
-/
namespace Witt
variable [Arith]

/-- ripper.py 1240-1262: `_r_theory_bits` of a rule with `len` conditions among `n` possible ones.
With `k = max(len, 1)`: `n = 0` and `k = n` divide by zero, `k > n` takes the logarithm of a
negative number. -/
def ruleTheory (n : Nat) (len : Nat) : Except PyErr Rat :=
  let k := max len 1
  if n = 0 then .error .zeroDivision
  else if k = n then .error .zeroDivision
  else if n < k then .error .valueError
  else .ok (Arith.ruleBits n k)

/-- The loop of ripper.py 1270-1272: add the theory bits of the rules to `total`, one by one. -/
def theorySum (n : Nat) : Rat → List (List Cond) → Except PyErr Rat
  | total, [] => .ok total
  | total, r :: rs => do theorySum n (Arith.addDl total (← ruleTheory n r.length)) rs

/-- ripper.py 1264-1278: `_rs_theory_bits`. -/
def rsTheory (n : Nat) (rules : List (List Cond)) : Except PyErr Rat := theorySum n Arith.zeroDl rules

/-- `math.log2(x)` of an integer: a non-positive argument is a ValueError. -/
def log2Exp (x : Int) : Except PyErr Rat := if x ≤ 0 then .error .valueError else .ok (Arith.log2 x)

/-- ripper.py 1309-1332: `_exceptions_bits_cn`. -/
def exceptionsCn (cn : CatNap) (rules : List (List Cond)) (pos neg : List Label) : Except PyErr Rat := do
  let N : Int := (pos.length : Int) + neg.length
  let posCov := (cn.rulesetCovers rules (some pos)).length
  let negCov := (cn.rulesetCovers rules (some neg)).length
  let p : Int := (posCov : Int) + negCov
  let fp : Int := negCov
  let fn : Int := (pos.length : Int) - posCov
  return Arith.addDl (← log2Exp (nCr p fp)) (← log2Exp (nCr (N - p) fn))

/-- ripper.py 1462-1471: `_rs_total_bits_cn` with `bestsubset_dl=False`. -/
def totalBitsCn (cn : CatNap) (rules : List (List Cond)) (pos neg : List Label) : Except PyErr Rat := do
  return Arith.addDl (← rsTheory cn.conds.length rules) (← exceptionsCn cn rules pos neg)

/-- The first loop of ripper.py 1478-1490: the description length of every prefix of the rules (`done`
are the rules already visited, `theory` their accumulated theory bits). -/
def subsetDls (cn : CatNap) (pos neg : List Label) (theory : Rat) (done : List (List Cond)) :
    List (List Cond) → Except PyErr (List Rat)
  | [] => .ok []
  | r :: rs => do
    let t := Arith.addDl theory (← ruleTheory cn.conds.length r.length)
    let e ← exceptionsCn cn (done ++ [r]) pos neg
    return Arith.addDl t e :: (← subsetDls cn pos neg t (done ++ [r]) rs)

/-- The second loop of ripper.py 1493-1498: keep rule 0 and every rule whose prefix is no worse than the
prefix before it (`prev` is `subset_dls[i - 1]`). -/
def mdlFilter : Option Rat → List (List Cond × Rat) → List (List Cond)
  | _, [] => []
  | none, (r, d) :: xs => r :: mdlFilter (some d) xs
  | some p, (r, d) :: xs => if d ≤ p then r :: mdlFilter (some d) xs else mdlFilter (some d) xs

/-- ripper.py 1472-1518: `_rs_total_bits_cn` with `bestsubset_dl=True`: the best subset and its length. -/
def bestSubsetCn (cn : CatNap) (rules : List (List Cond)) (pos neg : List Label) :
    Except PyErr (List (List Cond) × Rat) := do
  let dls ← subsetDls cn pos neg Arith.zeroDl [] rules
  let mdl := mdlFilter none (rules.zip dls)
  return (mdl, ← totalBitsCn cn mdl pos neg)

/-- Loop state of RIPPER's growing phase: `dl` is `(theory_dl, mdl)` once a rule has been added, `diff`
is `dl_diff`. -/
structure RipSt (R : PyRandom) where
  rules : List (List Cond)
  pos : List Label
  neg : List Label
  dl : Option (Rat × Rat)
  diff : Rat
  g : R.G

/-- ripper.py 636-663 and 681: the bookkeeping after a rule is added: `theory`, `mdl`, `diff`. -/
def ripDl (theory0 : Option (Rat × Rat)) (ruleDl dataDl : Rat) : (Rat × Rat) × Option Rat :=
  match theory0 with
  | none => ((ruleDl, Arith.addDl ruleDl dataDl), none)
  | some (theory, mdl) =>
    let t := Arith.addDl theory ruleDl
    let total := Arith.addDl t dataDl
    ((t, if total < mdl then total else mdl), some (Arith.subDl total mdl))

/-- One iteration of the loop of ripper.py 588-694. `allPos`, `allNeg` are the arguments `pos_idx`,
`neg_idx`. `1 - prune_size` is a TypeError for `prune_size=None`. -/
def ripperStepCn (fuel : Nat) (R : PyRandom) (cn : CatNap) (hp : Hyper) (allPos allNeg : List Label)
    (st : RipSt R) : Except PyErr (Step (RipSt R) (RipSt R)) := do
  if st.pos = [] ∨ !Arith.within st.diff hp.dlAllowance then return .done st
  else if stopEarly hp.lim st.rules st.pos.length st.neg.length then return .done st
  else
    match hp.pruneSize with
    | none => .error .typeError
    | some ps =>
      let (posGrow, posPrune, g1) := randomSplit R st.g st.pos (Arith.complement ps) hp.randomState
      let (negGrow, negPrune, g2) := randomSplit R g1 st.neg (Arith.complement ps) hp.randomState
      if posGrow = [] then return .done { st with g := g2 }
      else
        let grown ← growRuleCn fuel cn hp.lim posGrow negGrow []
        if grown = [] then return .done { st with g := g2 }
        else
          match ← (if ps ≠ 0 then pruneRule (ripperGrowMetricCn cn posPrune negPrune) grown
                   else .ok (some grown)) with
          | none => .error .attributeError
          | some pruned =>
            let rules := st.rules ++ [pruned]
            let ruleDl ← ruleTheory cn.conds.length pruned.length
            let dataDl ← exceptionsCn cn rules allPos allNeg
            let (dl, d) := ripDl st.dl ruleDl dataDl
            let (pos', neg') := rmRuleCoversCn cn pruned st.pos st.neg
            return .more { rules := rules, pos := pos', neg := neg', dl := some dl,
                           diff := d.getD st.diff, g := g2 }

/-- ripper.py 559-696: `_grow_ruleset_cn`. -/
def ripperGrowCn (fuel : Nat) (R : PyRandom) (cn : CatNap) (hp : Hyper) (init : List (List Cond))
    (pos neg : List Label) (g : R.G) : Except PyErr (RipSt R) :=
  pyWhile (ripperStepCn fuel R cn hp pos neg) fuel
    { rules := init, pos := pos, neg := neg, dl := none, diff := Arith.zeroDl, g := g }

/-- `rule in new_ruleset`, ripper.py 1082: iteration over the rules with `Rule.__eq__`. -/
def condsIn (r : List Cond) (rs : List (List Cond)) : Bool := rs.any (fun s => condsEq s r)

/-- ripper.py 930-1081: the choice for rule `i`: grow and prune a replacement and a revision, compare
description lengths, return the best of original, replacement and revision. The limits passed to
`grow_rule_cn` are `min_rule_samples` only (`fit` does not pass `max_rule_conds`, ripper.py 278-285).
A pruned rule can be None (empty prune sets); `i_replaced` then leaves the rule out, and choosing None
raises AttributeError at its next use, here: at the choice (simplification). -/
def optimizeChoice (fuel : Nat) (cn : CatNap) (hp : Hyper) (original : List (List Cond))
    (originalDl : Rat) (i : Nat) (rule : List Cond) (allPos allNeg : List Label)
    (posGrow posPrune negGrow negPrune : List Label) : Except PyErr (List Cond) := do
  let lim : Limits := { minRuleSamples := hp.lim.minRuleSamples }
  let gRep ← growRuleCn fuel cn lim posGrow negGrow []
  let prRep ← pruneRuleOn (ripperOptMetricCn cn posPrune negPrune) gRep
    (iReplaced original i (some gRep)) i
  let gRev ← growRuleCn fuel cn lim posGrow negGrow rule
  let prRev ← pruneRuleOn (ripperOptMetricCn cn posPrune negPrune) gRev
    (iReplaced original i (some gRev)) i
  let isRule : Option (List Cond) → Bool := fun o => match o with
    | none => false
    | some r => condsEq r rule
  let repDl ← (if isRule prRep then .ok originalDl
               else totalBitsCn cn (iReplaced original i prRep) allPos allNeg)
  let revDl ← (if isRule prRev then .ok originalDl
               else totalBitsCn cn (iReplaced original i prRev) allPos allNeg)
  let best ← argmin (fun a b => decide (a < b)) [originalDl, repDl, revDl]
  match best with
  | 0 => return rule
  | 1 => match prRep with
    | some r => return r
    | none => .error .attributeError
  | _ => match prRev with
    | some r => return r
    | none => .error .attributeError

/-- The loop of ripper.py 930-1099 over the rules of `original` from position `i` on. -/
def optimizeLoop (fuel : Nat) (R : PyRandom) (cn : CatNap) (hp : Hyper) (ps : Rat) (rs : Option Int)
    (original : List (List Cond)) (originalDl : Rat) (allPos allNeg : List Label) :
    Nat → List (List Cond) → List (List Cond) → List Label → List Label → R.G →
    Except PyErr (List (List Cond) × R.G)
  | _, [], new, _, _, g => .ok (new, g)
  | i, rule :: rest, new, pos, neg, g => do
    let (posGrow, posPrune, g1) := randomSplit R g pos (Arith.complement ps) rs
    let (negGrow, negPrune, g2) := randomSplit R g1 neg (Arith.complement ps) rs
    if posGrow = [] then return (new, g2)
    else if stopEarly hp.lim new pos.length neg.length then return (new, g2)
    else
      let best ← optimizeChoice fuel cn hp original originalDl i rule allPos allNeg
        posGrow posPrune negGrow negPrune
      let new := new.set i (if !condsIn best new then best else rule)
      let (pos', neg') := rmRuleCoversCn cn rule pos neg
      if pos' = [] then return (new, g2)
      else optimizeLoop fuel R cn hp ps rs original originalDl allPos allNeg (i + 1) rest new pos' neg' g2

/-- ripper.py 895-1101: `_optimize_ruleset_cn` (`1 - prune_size` raises TypeError for None, at the first
rule). -/
def optimizeCn (fuel : Nat) (R : PyRandom) (cn : CatNap) (hp : Hyper) (rs : Option Int)
    (rules : List (List Cond)) (allPos allNeg : List Label) (g : R.G) :
    Except PyErr (List (List Cond) × R.G) := do
  let (_, originalDl) ← bestSubsetCn cn rules allPos allNeg
  match hp.pruneSize with
  | none => if rules = [] then return (rules, g) else .error .typeError
  | some ps => optimizeLoop fuel R cn hp ps rs rules originalDl allPos allNeg 0 rules rules allPos allNeg g

/-- `ruleset == newset`, base.py 61-80, on condition lists. -/
def condsRulesetEq (a b : List (List Cond)) : Bool :=
  a.all (fun r => b.any (fun s => condsEq r s)) && b.all (fun r => a.any (fun s => condsEq r s))

/-- ripper.py 265-311: stage 2, `n` more iterations to go; an unchanged ruleset ends the loop unless it is
the last iteration. -/
def stage2 (fuel : Nat) (R : PyRandom) (cn : CatNap) (hp : Hyper) (allPos allNeg : List Label) :
    Nat → List (List Cond) → R.G → Except PyErr (List (List Cond) × R.G)
  | 0, rules, g => .ok (rules, g)
  | n + 1, rules, g => do
    let (new, g') ← optimizeCn fuel R cn hp (hp.randomState.map (· + 100)) rules allPos allNeg g
    if n ≠ 0 && condsRulesetEq rules new then return (rules, g')
    else stage2 fuel R cn hp allPos allNeg n new g'

/-- ripper.py 1147-1185: `_cover_remaining_positives_cn`: grows again from all examples (the covered ones
are not removed), starting from the current rules. -/
def coverRemainingCn (fuel : Nat) (R : PyRandom) (cn : CatNap) (hp : Hyper) (rules : List (List Cond))
    (pos neg : List Label) (g : R.G) : Except PyErr (List (List Cond) × R.G) := do
  if pos.length ≥ 1 then
    let st ← ripperGrowCn fuel R cn hp rules pos neg g
    return (st.rules, st.g)
  else return (rules, g)

/-- ripper.py 229-365: stages 1 to 4 on an index. -/
def ripperStages (fuel : Nat) (R : PyRandom) (cn : CatNap) (hp : Hyper) (init : List (List Cond))
    (pos neg : List Label) (g : R.G) : Except PyErr (List (List Cond) × R.G) := do
  let st ← ripperGrowCn fuel R cn hp init pos neg g
  let (rules, g) ← stage2 fuel R cn hp pos neg hp.k.toNat st.rules st.g
  let (rules, g) ← coverRemainingCn fuel R cn hp rules pos neg g
  let (rules, _) ← bestSubsetCn cn rules pos neg
  return (rules, g)

/-- ripper.py 115-390: `RIPPER.fit` with `cn_optimize=True` on data already preprocessed to a labelled,
discretised frame. -/
def ripperFit (fuel : Nat) (R : PyRandom) (hp : Hyper) (init : List (List Cond)) (df : Frame) (cf : Feat)
    (pc : Val) (g : R.G) : Except PyErr (Fitted × R.G) := do
  if df.rows = [] then .error .valueError
  else if cf ∉ df.cols then .error .indexError
  else
    let cn ← CatNap.build df cf
    let (rules, g) ← ripperStages fuel R cn hp init (labelSet (posRows df cf pc).index)
      (labelSet (negRows df cf pc).index) g
    let rs : Ruleset := { rules := rules.map (fun c => { conds := c }) }
    let sel := rs.selectedFeatures
    let rs : Ruleset := { rs with rules := removeDups Rule.sameKey rs.rules }
    let rs := rs.trimConds hp.lim.maxTotalConds
    let rs ← (match recalibrate rs df cf pc hp.alpha with | (rs, e) => raiseIf rs e)
    return ({ ruleset := rs, selected := sel, trainFeats := (df.dropCol cf).cols }, g)

end Witt
