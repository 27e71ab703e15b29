import Verif.Rules
/-
The coverage index used by training with `cn_optimize=True` (wittgenstein/catnap.py).
Rules are plain condition lists here; sets of labels are duplicate-free lists (order irrelevant).
-/
namespace Witt

/-- `a.intersection(b)` on label sets (the order follows `b`; set order is not observable here). -/
def setInter (a b : List Label) : List Label := b.filter (fun l => a.contains l)

/-- `a - b` on label sets. -/
def setDiff (a b : List Label) : List Label := a.filter (fun l => !b.contains l)

/-- `set.intersection(*sets)` for a non-empty list of sets. -/
def setInterAll : List (List Label) → List Label
  | [] => []
  | [s] => s
  | s :: t :: ss => setInter s (setInterAll (t :: ss))

/-- `set.union(*sets)`. -/
def setUnionAll (ss : List (List Label)) : List Label := labelSet ss.flatten

/-- catnap.py 9-50: the object's attributes `conds`, `cond_maps` and `all`. -/
structure CatNap where
  conds : List Cond
  maps : List (Cond × List Label)
  all : List Label

/-- catnap.py 105-110: `possible_conds`: every value of every column. -/
def possibleConds (df : Frame) : List Cond :=
  df.cols.flatMap (fun f => (df.unique f).map (fun v => { feature := f, val := v }))

/-- catnap.py 15-50, as `fit` calls it (irep.py 177-184, ripper.py 209-216): `columns=None`,
`cond_subset=None`, `class_feat` given; `df.drop(class_feat, axis=1)` raises KeyError when the column
does not exist. -/
def CatNap.build (df : Frame) (classFeat : Feat) : Except PyErr CatNap :=
  if classFeat ∈ df.cols then do
    let conds := possibleConds (df.dropCol classFeat)
    let maps ← conds.mapM (fun c => do
      return (c, labelSet (← c.covers (df.dropCol classFeat)).index))
    return { conds := conds, maps := maps, all := labelSet df.index }
  else .error .keyError

/-- `cond_maps.get(cond, set())`: of several equal keys the last one's value (a dict keeps the last);
equality of keys is `Cond.__eq__` (hashes agree with it, base.py 447-448). -/
def CatNap.lookup (cn : CatNap) (c : Cond) : List Label :=
  match cn.maps.reverse.find? (fun kv => kv.1.pyEq c) with
  | some kv => kv.2
  | none => []

/-- catnap.py 59-64: `cond_covers`. -/
def CatNap.condCovers (cn : CatNap) (c : Cond) (subset : Option (List Label)) : List Label :=
  match subset with
  | none => cn.lookup c
  | some s => setInter (cn.lookup c) s

/-- catnap.py 66-73: `rule_covers`. -/
def CatNap.ruleCovers (cn : CatNap) (r : List Cond) (subset : Option (List Label)) : List Label :=
  if r ≠ [] then
    let covered := setInterAll (r.map cn.lookup)
    match subset with
    | none => covered
    | some s => setInter covered s
  else
    match subset with
    | none => cn.all
    | some s => setInter cn.all s

/-- catnap.py 75-100: `ruleset_covers`; a universal ruleset returns `self.all if not subset else subset`,
and `not subset` holds for `None` and for the empty set. -/
def CatNap.rulesetCovers (cn : CatNap) (rs : List (List Cond)) (subset : Option (List Label)) :
    List Label :=
  if rs.any List.isEmpty then
    match subset with
    | none => cn.all
    | some [] => cn.all
    | some s => s
  else if rs = [] then []
  else
    let u := setUnionAll (rs.map (fun r => setInterAll (r.map cn.lookup)))
    match subset with
    | none => u
    | some s => setInter u s

/-- base_functions.py 694-701, 631-635 and catnap.py 112-123: the positive rows. -/
def posRows (df : Frame) (classFeat : Feat) (posClass : Val) : Frame :=
  df.keep (fun r => (r.cell classFeat).pyEq posClass)

/-- base_functions.py 699-701: the negative rows (`!=`, so missing labels are negative). -/
def negRows (df : Frame) (classFeat : Feat) (posClass : Val) : Frame :=
  df.keep (fun r => !(r.cell classFeat).pyEq posClass)

/-- base_functions.py 773-778: `rm_rule_covers_cn`. -/
def rmRuleCoversCn (cn : CatNap) (r : List Cond) (pos neg : List Label) : List Label × List Label :=
  (setDiff pos (cn.ruleCovers r (some pos)), setDiff neg (cn.ruleCovers r (some neg)))

/-- base_functions.py 750-770: `rm_covered` for a rule: drop every row whose label is a covered row's. -/
def rmCoveredRule (r : List Cond) (pos neg : Frame) : Except PyErr (Frame × Frame) := do
  let p ← condsCover r pos
  let n ← condsCover r neg
  return (pos.dropLabels p.index, neg.dropLabels n.index)

/-- base_functions.py 750-770: `rm_covered` for a ruleset. -/
def rmCoveredRuleset (rs : Ruleset) (pos neg : Frame) : Except PyErr (Frame × Frame) := do
  let p ← rs.covers pos
  let n ← rs.covers neg
  return (pos.dropLabels p.index, neg.dropLabels n.index)

end Witt
