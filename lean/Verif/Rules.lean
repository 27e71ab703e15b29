import Verif.Value
/-
Cond, Rule, Ruleset (wittgenstein/base.py): coverage, equality, hashing, queries.
-/
namespace Witt

/-- base.py 428-433: `Cond(feature, val)`. -/
structure Cond where
  feature : Feat
  val : Val
  deriving DecidableEq, Repr

/-- base.py 435-436: `str(cond)`. -/
def Cond.text (c : Cond) : PStr := c.feature.text ++ ['='] ++ c.val.text

/-- base.py 441-445: `Cond.__eq__`. -/
def Cond.pyEq (a b : Cond) : Bool := a.feature == b.feature && a.val.pyEq b.val

/-- `c in conds` (list or set membership by `Cond.__eq__`, base.py 441-448). -/
def condIn (c : Cond) (cs : List Cond) : Bool := cs.any (fun d => d.pyEq c)

/-- The mask `df[feature] == val` on one row, base.py 452. -/
def Cond.met (c : Cond) (r : Row) : Bool := (r.cell c.feature).pyEq c.val

/-- base.py 450-452: `Cond.covers`; `df[feature]` raises KeyError when the column is missing. -/
def Cond.covers (c : Cond) (df : Frame) : Except PyErr Frame :=
  if c.feature ∈ df.cols then .ok (df.keep c.met) else .error .keyError

/-- Probability attributes set by `recalibrate_proba` (base_functions.py 338-340, 358-360) on a rule
(`class_ns_`, `class_freqs_`, `smoothed_class_freqs_`) or on a ruleset (`uncovered_...`), as pairs
(negative, positive); `none` means the attribute does not exist. -/
structure Calib where
  ns : Option (Int × Int) := none
  freqs : Option (Rat × Rat) := none
  smoothed : Option (Rat × Rat) := none
  deriving DecidableEq, Repr

/-- base.py 329-336: `Rule(conds)` with its optional calibration attributes. -/
structure Rule where
  conds : List Cond
  cal : Calib := {}
  deriving DecidableEq, Repr

/-- base.py 376-377. -/
def Rule.isEmpty (r : Rule) : Bool := r.conds.isEmpty

/-- The loop of base.py 379-384: `covered = df.head(len(df))`, then restrict by each condition. -/
def condsCover : List Cond → Frame → Except PyErr Frame
  | [], df => .ok df
  | c :: cs, df => do condsCover cs (← c.covers df)

/-- base.py 379-384: `Rule.covers`. -/
def Rule.covers (r : Rule) (df : Frame) : Except PyErr Frame := condsCover r.conds df

/-- base.py 386-387: `Rule.num_covered`. -/
def Rule.numCovered (r : Rule) (df : Frame) : Except PyErr Nat := do
  return (← r.covers df).rows.length

/-- The texts compared by `Rule.__eq__` and hashed by `Rule.__hash__` (base.py 361-371). -/
def condTexts (cs : List Cond) : List PStr := cs.map Cond.text

/-- base.py 361-368: `Rule.__eq__` on the condition lists: same length and same set of texts. -/
def condsEq (a b : List Cond) : Bool :=
  a.length == b.length &&
  ((condTexts a).all (fun t => (condTexts b).contains t) &&
   (condTexts b).all (fun t => (condTexts a).contains t))

/-- base.py 361-368. -/
def Rule.pyEq (a b : Rule) : Bool := condsEq a.conds b.conds

/-- base.py 370-371: equality of the hashed keys `tuple(sorted(texts))`: the texts are the same up to
order. Simplification: hash collisions between different keys are ignored. -/
def condsSameKey (a b : List Cond) : Bool := (condTexts a).isPerm (condTexts b)

/-- base.py 370-371. -/
def Rule.sameKey (a b : Rule) : Bool := condsSameKey a.conds b.conds

/-- base.py 389-391: `Rule.covered_feats`. -/
def Rule.coveredFeats (r : Rule) : List Feat := r.conds.map Cond.feature

/-- base.py 21-28: `Ruleset(rules)`, its uncovered-class attributes (base_functions.py 358-360) and its
`possible_conds` attribute (`none`: not set). -/
structure Ruleset where
  rules : List Rule
  uncov : Calib := {}
  possible : Option (List Cond) := none
  deriving DecidableEq, Repr

/-- `rule in rules`, base.py 69, 78: list membership by `Rule.__eq__`. -/
def ruleIn (r : Rule) (rs : List Rule) : Bool := rs.any (fun s => r.pyEq s)

/-- base.py 61-80: `Ruleset.__eq__` (both inclusions, duplicates allowed). -/
def Ruleset.pyEq (a b : Ruleset) : Bool :=
  a.rules.all (fun r => ruleIn r b.rules) && b.rules.all (fun r => ruleIn r a.rules)

/-- base.py 94-99. -/
def Ruleset.isUniversal (rs : Ruleset) : Bool :=
  if rs.rules.length ≥ 1 then rs.rules.any Rule.isEmpty else false

/-- base.py 101-103. -/
def Ruleset.isNull (rs : Ruleset) : Bool := rs.rules.length == 0

/-- base.py 116-128: `Ruleset.covers`: all rows if universal, none if null, else the concatenation of
the rows each rule covers (a row covered twice appears twice). -/
def Ruleset.covers (rs : Ruleset) (df : Frame) : Except PyErr Frame :=
  if rs.isUniversal then .ok df
  else if rs.isNull then .ok { df with rows := [] }
  else do
    let parts ← rs.rules.mapM (fun r => r.covers df)
    return { df with rows := (parts.map Frame.rows).flatten }

/-- base.py 136-138: `Ruleset.num_covered`. -/
def Ruleset.numCovered (rs : Ruleset) (df : Frame) : Except PyErr Nat := do
  return (← rs.covers df).rows.length

/-- base.py 105-114: `Ruleset.copy` refers to the module `copy`, which base.py does not import. -/
def Ruleset.copy (_rs : Ruleset) (_limit : Option Int) : Except PyErr Ruleset := .error .nameError

/-- base.py 144-146: `count_conds` on condition lists. -/
def countConds (rules : List (List Cond)) : Nat := (rules.map List.length).sum

/-- base.py 144-146. -/
def Ruleset.countConds (rs : Ruleset) : Nat := Witt.countConds (rs.rules.map Rule.conds)

/-- base.py 148-156: `get_conds`; `seen` is `conds_set` (updated after each rule). -/
def getCondsAux : List Cond → List Rule → List Cond
  | _, [] => []
  | seen, r :: rs =>
    let new := r.conds.filter (fun c => !condIn c seen)
    new ++ getCondsAux (seen ++ new) rs

/-- base.py 148-156. -/
def Ruleset.getConds (rs : Ruleset) : List Cond := getCondsAux [] rs.rules

/-- The `while` loop of base.py 172-176: keep the first `n` rules, and drop the last of them as long as
they have more than `m` conditions. -/
def trimAux {α : Type} (size : α → Nat) (m : Int) (rules : List α) : Nat → List α
  | 0 => []
  | n + 1 =>
    if ((((rules.take (n + 1)).map size).sum : Nat) : Int) > m then trimAux size m rules n
    else rules.take (n + 1)

/-- base.py 172-176: `trim_conds` on a list of rules (`size` gives a rule's number of conditions). -/
def trimRules {α : Type} (size : α → Nat) (m : Option Int) (rules : List α) : List α :=
  match m with
  | none => rules
  | some m => trimAux size m rules rules.length

/-- base.py 172-176. -/
def Ruleset.trimConds (rs : Ruleset) (m : Option Int) : Ruleset :=
  { rs with rules := trimRules (fun r => r.conds.length) m rs.rules }

/-- Inner loops of base.py 316-326: `seen` is `feature_set`. -/
def selectedAux : List Feat → List Feat → List Feat
  | _, [] => []
  | seen, f :: fs => if seen.contains f then selectedAux seen fs else f :: selectedAux (f :: seen) fs

/-- base.py 316-326: `get_selected_features`. -/
def Ruleset.selectedFeatures (rs : Ruleset) : List Feat :=
  selectedAux [] (rs.rules.flatMap (fun r => r.conds.map Cond.feature))

/-- utils.py 15-25: `remove_duplicates`; `seen` is `encountered` (set membership: same hash key, hence
also equal). -/
def removeDupsAux {α : Type} (same : α → α → Bool) : List α → List α → List α
  | _, [] => []
  | seen, r :: rs =>
    if seen.any (fun s => same s r) then removeDupsAux same seen rs
    else r :: removeDupsAux same (r :: seen) rs

/-- utils.py 15-25: `remove_duplicates`. -/
def removeDups {α : Type} (same : α → α → Bool) (l : List α) : List α := removeDupsAux same [] l

/-! ### prediction -/

/-- `covered_indices` and `predictions`, base.py 236-237. -/
def Ruleset.predict (rs : Ruleset) (df : Frame) : Except PyErr (List Bool) := do
  let covered := labelSet (← rs.covers df).index
  return df.index.map (fun i => covered.contains i)

/-- The reasons of one row (base.py 245-251): the rules covering exactly one row of
`X_df[X_df.index == i]`. -/
def reasonsAt (rules : List Rule) (df : Frame) (i : Label) : Except PyErr (List Rule) :=
  rules.filterM (fun r => do return (← r.numCovered (df.keep (fun row => row.label == i))) == 1)

/-- base.py 240-252: predictions and reasons (`give_reasons=True`). -/
def Ruleset.predictReasons (rs : Ruleset) (df : Frame) :
    Except PyErr (List Bool × List (List Rule)) := do
  let ps ← rs.predict df
  let reasons ← (df.index.zip ps).mapM (fun ip =>
    if ip.2 then reasonsAt rs.rules df ip.1 else .ok [])
  return (ps, reasons)

/-- utils.py 74-81: `weighted_avg_freqs` of a list of pairs; `[]` gives zeros. -/
def weightedAvg (ps : List (Rat × Rat)) : Rat × Rat :=
  let a := (ps.map Prod.fst).sum
  let b := (ps.map Prod.snd).sum
  if a + b = 0 then (a, b) else (a / (a + b), b / (a + b))

/-- Reading an attribute that may not exist. -/
def attr {α : Type} : Option α → Except PyErr α
  | some a => .ok a
  | none => .error .attributeError

/-- base.py 254-292: `predict_proba` with its covering rules. -/
def Ruleset.predictProbaReasons (rs : Ruleset) (df : Frame) :
    Except PyErr (List (Rat × Rat) × List (List Rule)) := do
  let unc := weightedAvg [← attr rs.uncov.smoothed]
  let (ps, reasons) ← rs.predictReasons df
  let probas ← (ps.zip reasons).mapM (fun pr =>
    if !pr.1 then .ok unc
    else do return weightedAvg (← pr.2.mapM (fun r => attr r.cal.smoothed)))
  return (probas, reasons)

/-- base.py 254-292: `predict_proba(X)` (`give_reasons=False`; `flagged_return([True, False], ..)`
returns the first object, utils.py 42-48). -/
def Ruleset.predictProba (rs : Ruleset) (df : Frame) : Except PyErr (List (Rat × Rat)) := do
  return (← rs.predictProbaReasons df).1

end Witt
