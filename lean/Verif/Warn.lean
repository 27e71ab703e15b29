import Verif.Props.Fit
/-
The warnings that `fit` and `predict` issue (wittgenstein/check.py, and their callers): the same programs as `Clf.irepFit` and so on,
with a log. Not modelled: the deprecation warning for hyperparameters passed to `fit`, the warnings of `find_floor_ceil` about
unreadable ranges (only when a bin transformer is reconstructed from rules), and the texts.
-/
namespace Witt
variable [Arith]

/-- check.py 72-85 and base.py 294-314: what is warned of. -/
inductive Warning
  /-- "No positive samples." -/
  | noPositives
  /-- "No negative samples." -/
  | noNegatives
  /-- "Ruleset is universal. All predictions it makes with method .predict will be positive." -/
  | universal
  /-- "Ruleset is empty. All predictions it makes with method .predict will be negative." -/
  | empty
  deriving DecidableEq, Repr

/-- Code running on a classifier object that may issue warnings (which are kept when it raises). -/
abbrev Logged := EStateM PyErr (Clf × List Warning)

/-- Code that issues none. -/
def quietly {α : Type} (m : OnClf α) : Logged α := fun s =>
  match m s.1 with
  | .ok a c => .ok a (c, s.2)
  | .error e c => .error e (c, s.2)

/-- check.py 7-29: `_warn`, for each warning listed. -/
def warnAll (ws : List Warning) : Logged Unit := fun s => .ok () (s.1, s.2 ++ ws)

/-- preprocess.py 282-297 and check.py 72-77: `_warn_only_single_class`; `vs` the different values of the class column, `asked` the
positive class passed by the caller. -/
def singleClassWarnings (vs : List Val) (asked : Option Val) (pc : Val) : List Warning :=
  match asked, vs with
  | none, [v] => [if v.pyEq pc then .noNegatives else .noPositives]
  | _, _ => []

/-- check.py 79-85: `_check_df_allpos_allneg`. -/
def classWarnings (df : Frame) (cf : Feat) (pc : Val) : List Warning :=
  if !(df.rows.any (fun row => (row.cell cf).pyEq pc)) then [.noPositives]
  else if df.rows.all (fun row => (row.cell cf).pyEq pc) then [.noNegatives]
  else []

/-- base.py 294-314: `_check_allpos_allneg(warn=True)`. -/
def rulesWarnings (rs : Ruleset) : List Warning :=
  if rs.isUniversal then [.universal] else if rs.isNull then [.empty] else []

/-- preprocess.py 17-60: `preprocess_training_data` (cf. `preprocessTraining`). -/
def preprocessLogged (F : PyFloat) (P : PandasCut) (nBins : Option Nat) (d : FitData) :
    Logged (TFrame × Feat × Val × Binner) := do
  quietly (pureCode (checkInput d.X d.y d.classFeat d.names))
  let cf := classFeatName d.classFeat d.y
  let df ← quietly (pureCode (toTraining d.X d.y cf d.names))
  let pc ← quietly (pureCode (posClassOf (df.unique cf) d.posClass))
  warnAll (singleClassWarnings (df.unique cf) d.posClass pc)
  let (b, df) ← quietly (pureCode (Binner.fitTransform F P nBins df [cf]))
  return (df, cf, pc, b)

/-- irep.py 94-235: `IREP.fit` with `cn_optimize=True` (cf. `Clf.irepFit`). -/
def Clf.irepFitLogged (fuel : Nat) (R : PyRandom) (F : PyFloat) (P : PandasCut) (d : FitData) (init : ModelArg) (g : R.G) :
    Logged R.G := do
  let first ← quietly (pureCode init.early)
  quietly (modify (fun c => { c with ruleset := some first }))
  let (df, cf, pc, b) ← preprocessLogged F P (← quietly EStateM.get).nBins d
  quietly (modify (fun c => { c with classFeat := some cf, posClass := some pc, binner := some b }))
  let hp := (← quietly EStateM.get).hyper
  let cn ← quietly (pureCode (CatNap.build df.toFrame cf))
  warnAll (classWarnings df.toFrame cf pc)
  let start ← quietly (pureCode init.toRuleset)
  let st ← quietly (pureCode (irepGrowCn fuel R cn hp (start.rules.map Rule.conds)
    (labelSet (posRows df.toFrame cf pc).index) (labelSet (negRows df.toFrame cf pc).index) g))
  let rs : Ruleset := { rules := st.rules.map (fun c => { conds := c }), possible := some cn.conds }
  warnAll (rulesWarnings rs)
  quietly (modify (fun c => { c with
    ruleset := some rs
    selected := some rs.selectedFeatures
    trainFeats := some (df.toFrame.dropCol cf).cols }))
  quietly (Clf.fitProbas df.toFrame cf pc)
  quietly (modify (fun c => { c with classes := some .codes }))
  quietly Clf.tidy
  return st.g

/-- ripper.py 115-390: `RIPPER.fit` with `cn_optimize=True` (cf. `Clf.ripperFit`). -/
def Clf.ripperFitLogged (fuel : Nat) (R : PyRandom) (F : PyFloat) (P : PandasCut) (d : FitData) (init : ModelArg) (g : R.G) :
    Logged R.G := do
  let (df, cf, pc, b) ← preprocessLogged F P (← quietly EStateM.get).nBins d
  quietly (modify (fun c => { c with classFeat := some cf, posClass := some pc, binner := some b }))
  let hp := (← quietly EStateM.get).hyper
  let cn ← quietly (pureCode (CatNap.build df.toFrame cf))
  warnAll (classWarnings df.toFrame cf pc)
  let start ← quietly (pureCode init.toRuleset)
  let pos := labelSet (posRows df.toFrame cf pc).index
  let neg := labelSet (negRows df.toFrame cf pc).index
  let st ← quietly (pureCode (ripperGrowCn fuel R cn hp (start.rules.map Rule.conds) pos neg g))
  quietly (Clf.setRules cn.conds st.rules)
  let (rules, g) ← quietly (Clf.stage2 fuel R cn pos neg hp.k.toNat st.rules st.g)
  let (rules, g) ← quietly (pureCode (coverRemainingCn fuel R cn hp rules pos neg g))
  quietly (Clf.setRules cn.conds rules)
  let (rules, _) ← quietly (pureCode (bestSubsetCn cn rules pos neg))
  let rs : Ruleset := { rules := rules.map (fun c => { conds := c }) }
  warnAll (rulesWarnings rs)
  quietly (modify (fun c => { c with
    ruleset := some rs
    selected := some rs.selectedFeatures
    trainFeats := some (df.toFrame.dropCol cf).cols }))
  quietly Clf.tidy
  quietly (Clf.fitProbas df.toFrame cf pc)
  quietly (modify (fun c => { c with classes := some .codes }))
  return g

/-- irep.py 94-235: `IREP.fit` with `cn_optimize=False` (cf. `Clf.irepFitPlain`). -/
def Clf.irepFitPlainLogged (fuel : Nat) (R : PyRandom) (S : SetOps) (F : PyFloat) (P : PandasCut) (d : FitData)
    (init : ModelArg) (g : R.G) : Logged R.G := do
  let first ← quietly (pureCode init.early)
  quietly (modify (fun c => { c with ruleset := some first }))
  let (df, cf, pc, b) ← preprocessLogged F P (← quietly EStateM.get).nBins d
  quietly (modify (fun c => { c with classFeat := some cf, posClass := some pc, binner := some b }))
  let hp := (← quietly EStateM.get).hyper
  warnAll (classWarnings df.toFrame cf pc)
  let start ← quietly (pureCode init.toRuleset)
  let pos := posExamples df.toFrame cf pc
  let neg := negExamples df.toFrame cf pc
  let cands := updatedConds S start.possible pos neg
  let st ← quietly (pureCode (irepGrow fuel R cands hp (start.rules.map Rule.conds) pos neg g))
  let rs : Ruleset := { rules := st.rules.map (fun c => { conds := c }), possible := some cands }
  warnAll (rulesWarnings rs)
  quietly (modify (fun c => { c with
    ruleset := some rs
    selected := some rs.selectedFeatures
    trainFeats := some (df.toFrame.dropCol cf).cols }))
  quietly (Clf.fitProbas df.toFrame cf pc)
  quietly (modify (fun c => { c with classes := some .codes }))
  quietly Clf.tidy
  return st.g

/-- ripper.py 115-390: `RIPPER.fit` with `cn_optimize=False` (cf. `Clf.ripperFitPlain`). -/
def Clf.ripperFitPlainLogged (fuel : Nat) (R : PyRandom) (S : SetOps) (F : PyFloat) (P : PandasCut) (d : FitData)
    (init : ModelArg) (g : R.G) : Logged R.G := do
  let (df, cf, pc, b) ← preprocessLogged F P (← quietly EStateM.get).nBins d
  quietly (modify (fun c => { c with classFeat := some cf, posClass := some pc, binner := some b }))
  let hp := (← quietly EStateM.get).hyper
  warnAll (classWarnings df.toFrame cf pc)
  let start ← quietly (pureCode init.toRuleset)
  let pos := posExamples df.toFrame cf pc
  let neg := negExamples df.toFrame cf pc
  let cands := updatedConds S start.possible pos neg
  let st ← quietly (pureCode (ripperGrow fuel R cands hp (start.rules.map Rule.conds) pos neg g))
  quietly (Clf.setRules cands st.rules)
  let (rules, g) ← quietly (Clf.stage2Df fuel R cands pos neg hp.k.toNat st.rules st.g)
  let (rules, cands, g) ← quietly (pureCode (coverRemainingDf fuel R S cands hp rules pos neg g))
  quietly (Clf.setRules cands rules)
  let (rules, _) ← quietly (pureCode (bestSubsetDf cands.length rules pos neg))
  let rs : Ruleset := { rules := rules.map (fun c => { conds := c }) }
  warnAll (rulesWarnings rs)
  quietly (modify (fun c => { c with
    ruleset := some rs
    selected := some rs.selectedFeatures
    trainFeats := some (df.toFrame.dropCol cf).cols }))
  quietly Clf.tidy
  quietly (Clf.fitProbas df.toFrame cf pc)
  quietly (modify (fun c => { c with classes := some .codes }))
  return g

/-- irep.py 94-235, ripper.py 115-390: `fit`, with the warnings. -/
def Method.fitLogged (a : Method) (fuel : Nat) (R : PyRandom) (F : PyFloat) (P : PandasCut) (d : FitData) (init : ModelArg)
    (g : R.G) : Logged R.G :=
  match a with
  | .irep => Clf.irepFitLogged fuel R F P d init g
  | .ripper => Clf.ripperFitLogged fuel R F P d init g
  | .irepPlain S => Clf.irepFitPlainLogged fuel R S F P d init g
  | .ripperPlain S => Clf.ripperFitPlainLogged fuel R S F P d init g

/-- abstract_ruleset_classifier.py 92-137 and base.py 212-252: `predict`, with the warnings. (`predict_proba` calls it with
`warn=False`.) -/
def Clf.predictLogged (F : PyFloat) (X : TFrame) (names : Option (List Feat)) : Logged (List Bool) := do
  let _ ← quietly (self Clf.ruleset)
  quietly (ensureBinner F)
  let df ← quietly (prepared F X names)
  let rs ← quietly (self Clf.ruleset)
  warnAll (rulesWarnings rs)
  quietly (pureCode (rs.predict df))

end Witt
